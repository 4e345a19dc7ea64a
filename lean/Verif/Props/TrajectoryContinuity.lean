import Verif.Lemmas.EllipticContinuity
import Verif.Props.ConstantsContinuity
import Verif.Props.KerrOrbits

/-!
# C58: frequencies and trajectories depend continuously on the orbital parameters
-/

namespace KGP

open Classical Real Filter Topology

namespace Cont

/-- Orbits depending on a point of some space: constants and roots. -/
structure Family {X : Type*} [TopologicalSpace X] (a E L Q r1 r2 r3 r4 zm zp : X → ℝ) : Prop where
  ca : Continuous a
  cE : Continuous E
  cL : Continuous L
  c1 : Continuous r1
  c2 : Continuous r2
  c3 : Continuous r3
  c4 : Continuous r4
  cz : Continuous zm
  spin : ∀ w, a w ^ 2 < 1
  bound : ∀ w, Spec.BoundGeodesic (a w) (E w) (L w) (Q w) (r1 w) (r2 w) (r3 w) (r4 w)
  polar : ∀ w, PolarConfig (a w) (E w) (L w) (Q w) (zm w) (zp w)

section
variable {X : Type*} [TopologicalSpace X] {a E L Q r1 r2 r3 r4 zm zp : X → ℝ}
  (F : Family a E L Q r1 r2 r3 r4 zm zp)
include F

lemma config (w : X) : RootsConfig (r1 w) (r2 w) (r3 w) (r4 w) := BoundGeodesic.config (F.bound w)

lemma ne13 : ∀ w, r1 w - r3 w ≠ 0 := fun w => (config F w).ne13
lemma ne24 : ∀ w, r2 w - r4 w ≠ 0 := fun w => (config F w).ne24
lemma prod_ne : ∀ w, (r1 w - r3 w) * (r2 w - r4 w) ≠ 0 := fun w => (config F w).pos13_24.ne'
lemma zm_ne : ∀ w, 1 - zm w ≠ 0 := fun w => by linarith [(F.polar w).z1]
lemma rp3 (w : X) : 1 + √(1 - a w ^ 2) < r3 w := (F.bound w).horizon
lemma rm3 (w : X) : 1 - √(1 - a w ^ 2) < r3 w := by linarith [rp3 F w, Real.sqrt_nonneg (1 - a w ^ 2)]
lemma rp2 (w : X) : 1 + √(1 - a w ^ 2) < r2 w := (rp3 F w).trans (F.bound w).r32
lemma rm2 (w : X) : 1 - √(1 - a w ^ 2) < r2 w := (rm3 F w).trans (F.bound w).r32
lemma rpm (w : X) : (1 + √(1 - a w ^ 2)) - (1 - √(1 - a w ^ 2)) ≠ 0 := by
  have : 0 < √(1 - a w ^ 2) := Real.sqrt_pos.mpr (by linarith [F.spin w])
  intro h; linarith
lemma root_pos (w : X) : 0 < √((1 - E w ^ 2) * (r1 w - r3 w) * (r2 w - r4 w)) := by
  have h1 := (config F w).pos13_24
  have h2 : 0 < 1 - E w ^ 2 := by linarith [(F.bound w).energy]
  rw [mul_assoc]
  exact Real.sqrt_pos.mpr (mul_pos h2 h1)

lemma c_mR : Continuous fun w => mR (r1 w) (r2 w) (r3 w) (r4 w) := by
  have := F.c1; have := F.c2; have := F.c3; have := F.c4
  have := prod_ne F
  unfold mR
  fun_prop (disch := assumption)

lemma mR_lt (w : X) : mR (r1 w) (r2 w) (r3 w) (r4 w) < 1 := (config F w).mR_lt

lemma c_hPM {y : X → ℝ} (hy : Continuous y) (h : ∀ w, y w < r2 w) :
    Continuous fun w => hPM (r1 w) (r2 w) (r3 w) (y w) := by
  have := F.c1; have := F.c2; have := F.c3
  have : ∀ w, (r1 w - r3 w) * (r2 w - y w) ≠ 0 := fun w => mul_ne_zero (ne13 F w) (by linarith [h w])
  unfold hPM
  fun_prop (disch := assumption)

lemma hPM_lt {y : X → ℝ} (h : ∀ w, y w < r2 w) (w : X) : hPM (r1 w) (r2 w) (r3 w) (y w) < 1 :=
  (config F w).hPM_lt (h w)

lemma mT_eq (w : X) : mT (a w) (zm w) (zp w)
    = zm w * (a w ^ 2 * (1 - E w ^ 2) * (1 - zm w)) / (a w ^ 2 * (1 - E w ^ 2) * (1 - zm w) + L w ^ 2) := by
  unfold mT
  split_ifs with h
  · rw [h]; simp
  · rw [(F.polar w).zp_eq h]
    have h1 := zm_ne F w
    have h2 := (F.polar w).hE.ne'
    have h3 := (F.polar w).hL
    field_simp

lemma mT_den (w : X) : a w ^ 2 * (1 - E w ^ 2) * (1 - zm w) + L w ^ 2 ≠ 0 := by
  have h1 : 0 < 1 - zm w := by linarith [(F.polar w).z1]
  have h2 := (F.polar w).hE
  have h3 := (F.polar w).hL
  have : 0 < a w ^ 2 * (1 - E w ^ 2) * (1 - zm w) + L w ^ 2 := by positivity
  exact this.ne'

lemma c_mT : Continuous fun w => mT (a w) (zm w) (zp w) := by
  simp only [mT_eq F]
  have := F.ca; have := F.cE; have := F.cL; have := F.cz
  have := mT_den F
  fun_prop (disch := assumption)

lemma mT_lt (w : X) : mT (a w) (zm w) (zp w) < 1 := (F.polar w).mT_lt

lemma c_e0zp : Continuous fun w => e0zpOf (a w) (E w) (L w) (zm w) := by
  unfold e0zpOf
  have := F.ca; have := F.cE; have := F.cL; have := F.cz
  have : ∀ w, L w ^ 2 * (1 - zm w) ≠ 0 := fun w =>
    mul_ne_zero (pow_ne_zero _ (F.polar w).hL) (zm_ne F w)
  fun_prop (disch := assumption)

lemma e0zp_pos (w : X) : 0 < √(e0zpOf (a w) (E w) (L w) (zm w)) := Real.sqrt_pos.mpr (F.polar w).e0zp_pos

lemma a2s_eq (w : X) : a2sqrtZpOverE0 (a w) (E w) (L w) (zm w) (zp w)
    = (a w ^ 2 * (1 - E w ^ 2) * (1 - zm w) + L w ^ 2) / ((1 - zm w) * (1 - E w ^ 2))
      / √(e0zpOf (a w) (E w) (L w) (zm w)) := by
  have h1 : 0 < 1 - zm w := by linarith [(F.polar w).z1]
  have h2 := (F.polar w).hE
  have h3 := (F.polar w).hL
  by_cases h : a w = 0
  · unfold a2sqrtZpOverE0 e0zpOf
    rw [if_pos h, h]
    have e1 : (0 ^ 2 * (1 - E w ^ 2) * (1 - zm w) + L w ^ 2) / (L w ^ 2 * (1 - zm w)) = (1 - zm w)⁻¹ := by
      field_simp; ring
    rw [e1, Real.sqrt_inv]
    have h4 : 0 < √(1 - zm w) := Real.sqrt_pos.mpr h1
    have h5 : √(1 - zm w) ^ 2 = 1 - zm w := Real.sq_sqrt h1.le
    generalize √(1 - zm w) = k at *
    rw [← h5]
    field_simp
    ring
  · have e := (F.polar w).W_sq_zp h
    have e2 := (F.polar w).W_sq
    have h4 := e0zp_pos F w
    have e3 : a w ^ 2 * (1 - E w ^ 2) / L w ^ 2 * zp w = e0zpOf (a w) (E w) (L w) (zm w) := by
      rw [(F.polar w).zp_eq h, e0zpOf]; field_simp
    unfold a2sqrtZpOverE0
    rw [if_neg h, e3]
    congr 1
    rw [eq_div_iff (by positivity)]
    linear_combination e2 - (1 - zm w) * e

lemma c_a2s : Continuous fun w => a2sqrtZpOverE0 (a w) (E w) (L w) (zm w) (zp w) := by
  simp only [a2s_eq F]
  have h1 := c_e0zp F
  have := F.ca; have := F.cE; have := F.cL; have := F.cz
  have h3 : ∀ w, (1 - zm w) * (1 - E w ^ 2) ≠ 0 := fun w => mul_ne_zero (zm_ne F w) (F.polar w).hE.ne'
  refine Continuous.div ?_ h1.sqrt fun w => (e0zp_pos F w).ne'
  fun_prop (disch := assumption)

lemma c_upsilonR : Continuous fun w => rFrequencyCore (E w) (r1 w, r2 w, r3 w, r4 w) := by
  have h : ∀ w, rFrequencyCore (E w) (r1 w, r2 w, r3 w, r4 w)
      = π * √((1 - E w ^ 2) * (r1 w - r3 w) * (r2 w - r4 w)) / (2 * ellipk (mR (r1 w) (r2 w) (r3 w) (r4 w))) := by
    intro w; simp only [rFrequencyCore, kR, (config F w).sq_k]
  simp only [h]
  have := F.cE; have := F.c1; have := F.c2; have := F.c3; have := F.c4
  have h1 := c_mR F
  have h2 := mR_lt F
  refine Continuous.div (by fun_prop) ((c_ellipk h1 h2).const_mul 2) fun w => ?_
  exact mul_ne_zero two_ne_zero (ellipk_pos (h2 w)).ne'

lemma c_upsilonT : Continuous fun w => π * polarW (a w) (E w) (L w) (zm w) / (2 * ellipk (mT (a w) (zm w) (zp w))) := by
  have := F.cL
  have h0 := c_e0zp F
  have h1 := c_mT F
  have h2 := mT_lt F
  unfold polarW
  refine Continuous.div (by fun_prop) ((c_ellipk h1 h2).const_mul 2) fun w => ?_
  exact mul_ne_zero two_ne_zero (ellipk_pos (h2 w)).ne'

lemma c_gammaT : Continuous fun w => gammaT (a w) (E w) (L w) (zm w) (zp w) := by
  have := F.cE
  have h0 := c_e0zp F
  have h1 := c_mT F
  have h2 := mT_lt F
  have h3 := c_a2s F
  have h4 := c_ellipk h1 h2
  have h5 := c_ellipe h1
  unfold gammaT
  exact Continuous.div (by fun_prop) h4 fun w => (ellipk_pos (h2 w)).ne'

lemma c_phiT : Continuous fun w => phiT (a w) (L w) (zm w) (zp w) := by
  have := F.cL
  have h1 := c_mT F
  have h2 := mT_lt F
  have h4 := c_ellipk h1 h2
  have h5 := c_ellippi F.cz h1 (fun w => (F.polar w).z1) h2
  unfold phiT
  exact Continuous.div (by fun_prop) h4 fun w => (ellipk_pos (h2 w)).ne'

/-- The combination of elliptic integrals in `Upsilon_phi` and `Gamma` belonging to the horizon `y`. -/
lemma c_horizonTerm {y A : X → ℝ} (hy : Continuous y) (hA : Continuous A) (h3 : ∀ w, y w < r3 w) :
    Continuous fun w => A w / (r3 w - y w) * (ellipk (mR (r1 w) (r2 w) (r3 w) (r4 w))
      - (r2 w - r3 w) / (r2 w - y w)
        * ellippiK (hPM (r1 w) (r2 w) (r3 w) (y w)) (mR (r1 w) (r2 w) (r3 w) (r4 w))) := by
  have := F.c2; have := F.c3
  have h2 : ∀ w, y w < r2 w := fun w => (h3 w).trans (F.bound w).r32
  have k1 := c_ellipk (c_mR F) (mR_lt F)
  have k2 := c_ellippi (c_hPM F hy h2) (c_mR F) (hPM_lt F h2) (mR_lt F)
  have n3 : ∀ w, r3 w - y w ≠ 0 := fun w => by linarith [h3 w]
  have n2 : ∀ w, r2 w - y w ≠ 0 := fun w => by linarith [h2 w]
  exact (hA.div (by fun_prop) n3).mul (k1.sub (((by fun_prop : Continuous fun w => r2 w - r3 w).div (by fun_prop) n2).mul k2))

lemma c_rPlus : Continuous fun w => 1 + √(1 - a w ^ 2) := by have := F.ca; fun_prop
lemma c_rMinus : Continuous fun w => 1 - √(1 - a w ^ 2) := by have := F.ca; fun_prop

lemma hR_lt (w : X) : (r1 w - r2 w) / (r1 w - r3 w) < 1 := by
  have h1 := (F.bound w).r21
  have h2 := (F.bound w).r32
  rw [div_lt_one (by linarith)]; linarith

lemma c_hR : Continuous fun w => (r1 w - r2 w) / (r1 w - r3 w) := by
  have := F.c1; have := F.c2; have := F.c3
  exact Continuous.div (by fun_prop) (by fun_prop) (ne13 F)

lemma c_gammaR : Continuous fun w => gammaR (a w) (E w) (L w) (r1 w) (r2 w) (r3 w) (r4 w) := by
  have := F.ca; have := F.cE; have := F.cL; have := F.c1; have := F.c2; have := F.c3; have := F.c4
  have k1 := c_ellipk (c_mR F) (mR_lt F)
  have k2 := c_ellipe (c_mR F)
  have k3 := c_ellippi (c_hR F) (c_mR F) (hR_lt F) (mR_lt F)
  have k4 := c_horizonTerm F (y := fun w => 1 + √(1 - a w ^ 2))
    (A := fun w => (4 * E w - a w * L w) * (1 + √(1 - a w ^ 2)) - 2 * a w ^ 2 * E w) (by fun_prop) (by fun_prop) (rp3 F)
  have k5 := c_horizonTerm F (y := fun w => 1 - √(1 - a w ^ 2))
    (A := fun w => (4 * E w - a w * L w) * (1 - √(1 - a w ^ 2)) - 2 * a w ^ 2 * E w) (by fun_prop) (by fun_prop) (rm3 F)
  have k6 : Continuous fun w => 2 / ((1 + √(1 - a w ^ 2)) - (1 - √(1 - a w ^ 2))) :=
    Continuous.div (by fun_prop) (by fun_prop) (rpm F)
  have k7 : Continuous fun w => 1 / ellipk (mR (r1 w) (r2 w) (r3 w) (r4 w)) :=
    Continuous.div (by fun_prop) k1 fun w => (ellipk_pos (mR_lt F w)).ne'
  unfold gammaR
  refine k7.mul (((Continuous.mul (by fun_prop) (((Continuous.mul (by fun_prop) k1).add (Continuous.mul (by fun_prop) k3)).add
    (Continuous.mul (by fun_prop) k2))).add (Continuous.mul (by fun_prop)
      ((Continuous.mul (by fun_prop) k1).add (Continuous.mul (by fun_prop) k3)))).add (k6.mul (k4.sub k5)))

lemma c_phiR : Continuous fun w => phiR (a w) (E w) (L w) (r1 w) (r2 w) (r3 w) (r4 w) := by
  have := F.ca; have := F.cE; have := F.cL
  have k1 := c_ellipk (c_mR F) (mR_lt F)
  have k4 := c_horizonTerm F (y := fun w => 1 + √(1 - a w ^ 2))
    (A := fun w => 2 * E w * (1 + √(1 - a w ^ 2)) - a w * L w) (by fun_prop) (by fun_prop) (rp3 F)
  have k5 := c_horizonTerm F (y := fun w => 1 - √(1 - a w ^ 2))
    (A := fun w => 2 * E w * (1 - √(1 - a w ^ 2)) - a w * L w) (by fun_prop) (by fun_prop) (rm3 F)
  unfold phiR
  refine Continuous.mul (Continuous.div (by fun_prop) (Continuous.mul (by fun_prop) k1) fun w => ?_) (k4.sub k5)
  exact mul_ne_zero (rpm F w) (ellipk_pos (mR_lt F w)).ne'

section
variable {q : X → ℝ} (cq : Continuous q)
include cq

lemma c_amR : Continuous fun w => amR (mR (r1 w) (r2 w) (r3 w) (r4 w)) (q w) := by
  have k1 := c_ellipk (c_mR F) (mR_lt F)
  unfold amR
  exact c_am ((k1.mul cq).div_const π) (c_mR F) (mR_lt F)

lemma c_amT : Continuous fun w => amT (mT (a w) (zm w) (zp w)) (q w) := by
  have k1 := c_ellipk (c_mT F) (mT_lt F)
  unfold amT
  exact c_am ((k1.const_mul (2 / π)).mul (cq.add_const (π / 2))) (c_mT F) (mT_lt F)

lemma c_r : Continuous fun w => (radialSolutions (a w) (E w, L w, Q w) (r1 w, r2 w, r3 w, r4 w)).pos (q w) := by
  have h : ∀ w, (radialSolutions (a w) (E w, L w, Q w) (r1 w, r2 w, r3 w, r4 w)).pos (q w)
      = rOf (r1 w) (r2 w) (r3 w) (sin (amR (mR (r1 w) (r2 w) (r3 w) (r4 w)) (q w)) ^ 2) :=
    fun w => radial_pos_eq (config F w) (q w)
  simp only [h]
  have := F.c1; have := F.c2; have := F.c3
  have k := c_amR F cq
  unfold rOf
  refine Continuous.div (by fun_prop) (by fun_prop) fun w hw => ?_
  exact (config F w).denom_ne _ (Real.sin_sq_le_one _) (by linarith)

lemma c_theta : Continuous fun w => (polarSolutionsCore (a w) (E w, L w, Q w) (zm w) (zp w)).pos (q w) := by
  have h : ∀ w, (polarSolutionsCore (a w) (E w, L w, Q w) (zm w) (zp w)).pos (q w)
      = arccos (√(zm w) * sin (amT (mT (a w) (zm w) (zp w)) (q w))) := fun w => polar_pos_eq (F.polar w) _
  simp only [h]
  have := F.cz
  have k := c_amT F cq
  exact Real.continuous_arccos.comp (by fun_prop)

lemma c_Tdt : Continuous fun w => (polarSolutionsCore (a w) (E w, L w, Q w) (zm w) (zp w)).dt (q w) := by
  have h : ∀ w, (polarSolutionsCore (a w) (E w, L w, Q w) (zm w) (zp w)).dt (q w)
      = a2sqrtZpOverE0 (a w) (E w) (L w) (zm w) (zp w) * E w / |L w|
        * (2 / π * ellipe (mT (a w) (zm w) (zp w)) * (q w + π / 2)
          - ellipeincK (amT (mT (a w) (zm w) (zp w)) (q w)) (mT (a w) (zm w) (zp w))) := by
    intro w
    simp only [polarSolutionsCore, (F.polar w).sq_k, ellipj, amT]
    congr 1
    rcases lt_or_gt_of_ne (F.polar w).hL with hl | hl
    · rw [Real.sign_of_neg hl, abs_of_neg hl, div_neg]; ring
    · rw [Real.sign_of_pos hl, abs_of_pos hl]; ring
  simp only [h]
  have := F.cE; have := F.cL
  have k0 := c_a2s F
  have k1 := c_ellipe (c_mT F)
  have k2 := c_ellipeinc (c_amT F cq) (c_mT F) (mT_lt F)
  exact ((k0.mul F.cE).div F.cL.abs fun w => abs_ne_zero.mpr (F.polar w).hL).mul
    (((k1.const_mul (2 / π)).mul (cq.add_const (π / 2))).sub k2)

lemma c_Tdphi : Continuous fun w => (polarSolutionsCore (a w) (E w, L w, Q w) (zm w) (zp w)).dphi (q w) := by
  have h : ∀ w, (polarSolutionsCore (a w) (E w, L w, Q w) (zm w) (zp w)).dphi (q w)
      = L w / |L w| / √(e0zpOf (a w) (E w) (L w) (zm w))
        * (ellippiincK (amT (mT (a w) (zm w) (zp w)) (q w)) (zm w) (mT (a w) (zm w) (zp w))
          - 2 / π * ellippiK (zm w) (mT (a w) (zm w) (zp w)) * (q w + π / 2)) := by
    intro w
    simp only [polarSolutionsCore, (F.polar w).sq_k, ellipj, amT]
    congr 2
    rcases lt_or_gt_of_ne (F.polar w).hL with hl | hl
    · rw [Real.sign_of_neg hl, abs_of_neg hl, div_neg, div_self hl.ne]; ring
    · rw [Real.sign_of_pos hl, abs_of_pos hl, div_self hl.ne']; ring
  simp only [h]
  have k1 := c_ellippi F.cz (c_mT F) (fun w => (F.polar w).z1) (mT_lt F)
  have k2 := c_ellippiinc (c_amT F cq) F.cz (c_mT F) (fun w => (F.polar w).z1) (mT_lt F)
  exact ((F.cL.div F.cL.abs fun w => abs_ne_zero.mpr (F.polar w).hL).div (c_e0zp F).sqrt
    fun w => (e0zp_pos F w).ne').mul (k2.sub ((k1.const_mul (2 / π)).mul (cq.add_const (π / 2))))

/-- The oscillating part of an elliptic integral of the third kind. -/
lemma c_osc {n : X → ℝ} (cn : Continuous n) (hn : ∀ w, n w < 1) : Continuous fun w =>
    ellippiincK (amR (mR (r1 w) (r2 w) (r3 w) (r4 w)) (q w)) (n w) (mR (r1 w) (r2 w) (r3 w) (r4 w))
      - q w / π * ellippiK (n w) (mR (r1 w) (r2 w) (r3 w) (r4 w)) :=
  (c_ellippiinc (c_amR F cq) cn (c_mR F) hn (mR_lt F)).sub
    ((cq.div_const π).mul (c_ellippi cn (c_mR F) hn (mR_lt F)))

lemma c_horizonOsc {y A : X → ℝ} (hy : Continuous y) (hA : Continuous A) (h3 : ∀ w, y w < r3 w) :
    Continuous fun w => A w * (r2 w - r3 w) / ((r3 w - y w) * (r2 w - y w))
      * (ellippiincK (amR (mR (r1 w) (r2 w) (r3 w) (r4 w)) (q w)) (hPM (r1 w) (r2 w) (r3 w) (y w))
          (mR (r1 w) (r2 w) (r3 w) (r4 w))
        - q w / π * ellippiK (hPM (r1 w) (r2 w) (r3 w) (y w)) (mR (r1 w) (r2 w) (r3 w) (r4 w))) := by
  have := F.c2; have := F.c3
  have h2 : ∀ w, y w < r2 w := fun w => (h3 w).trans (F.bound w).r32
  refine Continuous.mul (Continuous.div (by fun_prop) (by fun_prop) fun w => ?_)
    (c_osc F cq (c_hPM F hy h2) (hPM_lt F h2))
  exact mul_ne_zero (by linarith [h3 w]) (by linarith [h2 w])

lemma c_Rdphi : Continuous fun w =>
    (radialSolutions (a w) (E w, L w, Q w) (r1 w, r2 w, r3 w, r4 w)).dphi (q w) := by
  have := F.ca; have := F.cE; have := F.cL; have := F.c1; have := F.c2; have := F.c3; have := F.c4
  have k4 := c_horizonOsc F cq (y := fun w => 1 + √(1 - a w ^ 2))
    (A := fun w => 2 * E w * (1 + √(1 - a w ^ 2)) - a w * L w) (by fun_prop) (by fun_prop) (rp3 F)
  have k5 := c_horizonOsc F cq (y := fun w => 1 - √(1 - a w ^ 2))
    (A := fun w => 2 * E w * (1 - √(1 - a w ^ 2)) - a w * L w) (by fun_prop) (by fun_prop) (rm3 F)
  simp only [radialSolutions, (config F _).sq_k, ellipj]
  refine Continuous.mul (Continuous.div (by fun_prop) (by fun_prop) fun w => ?_) (k4.sub k5)
  exact mul_ne_zero (rpm F w) (root_pos F w).ne'

lemma c_Rdt : Continuous fun w =>
    (radialSolutions (a w) (E w, L w, Q w) (r1 w, r2 w, r3 w, r4 w)).dt (q w) := by
  have := F.ca; have := F.cE; have := F.cL; have := F.c1; have := F.c2; have := F.c3; have := F.c4
  have k1 := c_osc F cq (c_hR F) (hR_lt F)
  have k2 := (c_ellipeinc (c_amR F cq) (c_mR F) (mR_lt F))
  have k3 := c_ellipe (c_mR F)
  have ka := c_amR F cq
  have ks := Real.continuous_sin.comp ka
  have km := c_mR F
  have kh := c_hR F
  have k4 := c_horizonOsc F cq (y := fun w => 1 + √(1 - a w ^ 2))
    (A := fun w => (4 * E w - a w * L w) * (1 + √(1 - a w ^ 2)) - 2 * a w ^ 2 * E w) (by fun_prop) (by fun_prop) (rp3 F)
  have k5 := c_horizonOsc F cq (y := fun w => 1 - √(1 - a w ^ 2))
    (A := fun w => (4 * E w - a w * L w) * (1 - √(1 - a w ^ 2)) - 2 * a w ^ 2 * E w) (by fun_prop) (by fun_prop) (rm3 F)
  have k6 : Continuous fun w => 2 / ((1 + √(1 - a w ^ 2)) - (1 - √(1 - a w ^ 2))) :=
    Continuous.div (by fun_prop) (by fun_prop) (rpm F)
  have k7 : Continuous fun w => (r1 w - r2 w) / (r1 w - r3 w) * sin (amR (mR (r1 w) (r2 w) (r3 w) (r4 w)) (q w))
      * cos (amR (mR (r1 w) (r2 w) (r3 w) (r4 w)) (q w))
      * √(1 - mR (r1 w) (r2 w) (r3 w) (r4 w) * sin (amR (mR (r1 w) (r2 w) (r3 w) (r4 w)) (q w)) ^ 2)
      / ((r1 w - r2 w) / (r1 w - r3 w) * sin (amR (mR (r1 w) (r2 w) (r3 w) (r4 w)) (q w)) ^ 2 - 1) := by
    refine Continuous.div ?_ ?_ fun w => ?_
    · exact ((kh.mul ks).mul (Real.continuous_cos.comp ka)).mul ((continuous_const.sub (km.mul (ks.pow 2))).sqrt)
    · exact (kh.mul (ks.pow 2)).sub continuous_const
    · have := one_sub_mul_sin_sq_pos (hR_lt F w) (amR (mR (r1 w) (r2 w) (r3 w) (r4 w)) (q w))
      intro h; linarith
  simp only [radialSolutions, (config F _).sq_k, ellipj]
  refine Continuous.mul (Continuous.div (by fun_prop) (by fun_prop) fun w => (root_pos F w).ne')
    ((Continuous.add (Continuous.mul (by fun_prop) ((Continuous.mul (by fun_prop) k1).add (Continuous.mul (by fun_prop)
      ((k2.add k7).sub (Continuous.mul (by fun_prop) k3))))) (Continuous.mul (by fun_prop) k1)).sub (k6.mul (k4.sub k5)))

end

end

end Cont

/-- The accepted parameters `(a, p, e, x)` of non-polar bound orbits with `0 ≤ a` and `e < 1`, apart from the orbits for
which the code divides by zero (see C04 and C22: divisors of `energy` and `angular_momentum` for `p ≤ 4`; `r₊` a root
of the radial potential; neither happens for retrograde orbits). -/
def Spec.TrajectoryDomain (rs : RootScalar) : Set (ℝ × ℝ × ℝ × ℝ) :=
  {v | Spec.BoundOrbit rs v.1 v.2.1 v.2.2.1 v.2.2.2 ∧ 0 ≤ v.1 ∧ v.2.2.1 ≠ 1 ∧ v.2.2.2 ≠ 0
    ∧ (0 < v.2.2.2 → v.2.1 ≤ 4 → Spec.DivisorsNonzero v.1 v.2.1 v.2.2.1 v.2.2.2)
    ∧ (v.2.2.2 < 0 ∨ ∀ E L Q, constantsOfMotion rs v.1 v.2.1 v.2.2.1 v.2.2.2 = .ok (E, L, Q) →
      E * ((1 + √(1 - v.1 ^ 2)) ^ 2 + v.1 ^ 2) ≠ v.1 * L)}

namespace Cont

lemma domain_sub (rs : RootScalar) : Spec.TrajectoryDomain rs ⊆ Spec.ConstantsDomain rs := by
  rintro ⟨a, p, e, x⟩ ⟨hb, ha, he1, hx0, hp, -⟩
  simp only at *
  refine ⟨hb, ha, fun h4 => ⟨lt_of_le_of_ne hb.2.1.2 he1, ?_⟩⟩
  simp only at *
  rcases lt_or_gt_of_ne hx0 with h | h
  · have := retrograde_bound hb (by unfold Spec.signedX; rw [if_neg (by linarith)]; exact h)
    linarith
  · exact hp h h4

/-- The constants, as a function of the parameters. -/
noncomputable def C (v : ℝ × ℝ × ℝ × ℝ) : Consts := pureConsts v.1 v.2.1 v.2.2.1 v.2.2.2
noncomputable def R (v : ℝ × ℝ × ℝ × ℝ) : Roots4 := stableRadialRootsCore v.1 v.2.1 v.2.2.1 (C v)
noncomputable def Z (v : ℝ × ℝ × ℝ × ℝ) : ℝ × ℝ := stablePolarRootsCore v.1 v.2.2.2 (C v)

lemma data {rs : RootScalar} {v : ℝ × ℝ × ℝ × ℝ} (hv : v ∈ Spec.TrajectoryDomain rs) (q : Phases) :
    ∃ T m, stableTrajectoryNat rs v.1 v.2.1 v.2.2.1 v.2.2.2 q = .ok T
      ∧ minoFrequencies rs v.1 v.2.1 v.2.2.1 v.2.2.2 = .ok m
      ∧ Spec.BoundGeodesic v.1 (C v).1 (C v).2.1 (C v).2.2 (R v).1 (R v).2.1 (R v).2.2.1 (R v).2.2.2
      ∧ StableData rs v.1 v.2.1 v.2.2.1 v.2.2.2 q T m (C v).1 (C v).2.1 (C v).2.2 (R v).1 (R v).2.1 (R v).2.2.1
          (R v).2.2.2 (Z v).1 (Z v).2
      ∧ 0 < m.gamma := by
  obtain ⟨hb, ha, he1, hx0, hp, hne⟩ := hv
  obtain ⟨T, m, E, L, Q, r1, r2, r3, r4, hT, hm, hc, hr, hbd, hE, hE1, hL, hQ, hf, hr2, e2⟩ :=
    orbit_hyps q hb ha he1 hx0 hp hne
  obtain ⟨m', zm, zp, D⟩ := stableData_of ha hT hc hr
  obtain rfl : m = m' := Except.ok.inj (hm.symm.trans D.mino)
  obtain ⟨h1, h2, h3⟩ := D.cores
  have hC : C v = (E, L, Q) := h1
  have hR : R v = (r1, r2, r3, r4) := h2
  have hZ : Z v = (zm, zp) := h3
  obtain ⟨-, -, hg, -⟩ := C46_future ha hT hm hc hr hbd hE hf
  refine ⟨T, m, hT, hm, ?_, ?_, ?_⟩
  · rw [hC, hR]; exact hbd
  · rw [hC, hR, hZ]; exact D
  · have : 0 < (v.2.1 / (1 + v.2.2.1)) ^ 2 := by rw [← e2]; positivity
    linarith

lemma C_continuousOn (rs : RootScalar) : ContinuousOn C (Spec.TrajectoryDomain rs) := by
  obtain ⟨F, hF, hc⟩ := C57_constants_continuous rs
  refine (hF.mono (domain_sub rs)).congr ?_
  intro v hv
  have h1 := hc v (domain_sub rs hv)
  obtain ⟨T, m, -, -, -, D, -⟩ := data hv ⟨0, 0, 0, 0⟩
  exact Except.ok.inj (D.consts.symm.trans h1)

section
variable {rs : RootScalar} {X : Type*} [TopologicalSpace X] {g : X → ℝ × ℝ × ℝ × ℝ} (cg : Continuous g)
  (hg : ∀ w, g w ∈ Spec.TrajectoryDomain rs)
include cg hg

lemma family : Family (fun w => (g w).1) (fun w => (C (g w)).1) (fun w => (C (g w)).2.1) (fun w => (C (g w)).2.2)
    (fun w => (R (g w)).1) (fun w => (R (g w)).2.1) (fun w => (R (g w)).2.2.1) (fun w => (R (g w)).2.2.2)
    (fun w => (Z (g w)).1) (fun w => (Z (g w)).2) := by
  have cC : Continuous fun w => C (g w) := (C_continuousOn rs).comp_continuous cg hg
  have hB : ∀ w, Spec.BoundGeodesic (g w).1 (C (g w)).1 (C (g w)).2.1 (C (g w)).2.2 (R (g w)).1 (R (g w)).2.1
      (R (g w)).2.2.1 (R (g w)).2.2.2 := fun w => by
    obtain ⟨T, m, -, -, h, -⟩ := data (hg w) ⟨0, 0, 0, 0⟩; exact h
  have hP : ∀ w, PolarConfig (g w).1 (C (g w)).1 (C (g w)).2.1 (C (g w)).2.2 (Z (g w)).1 (Z (g w)).2 := fun w => by
    obtain ⟨T, m, -, -, h, D, -⟩ := data (hg w) ⟨0, 0, 0, 0⟩; exact D.polar h.energy h.nonpolar
  have hE : ∀ w, 1 - (C (g w)).1 ^ 2 ≠ 0 := fun w => (hP w).hE.ne'
  have hS : ∀ w, (0 ≤ (g w).1 ∧ (g w).1 < 1) ∧ (0 ≤ (g w).2.2.1 ∧ (g w).2.2.1 < 1) := fun w => by
    obtain ⟨T, m, -, -, h, D, -⟩ := data (hg w) ⟨0, 0, 0, 0⟩; exact ⟨D.spin, D.ecc⟩
  have n1 : ∀ w, 1 - (g w).2.2.1 ≠ 0 := fun w => by linarith [(hS w).2.2]
  have n2 : ∀ w, 1 + (g w).2.2.1 ≠ 0 := fun w => by linarith [(hS w).2.1]
  have c1 : Continuous fun w => (R (g w)).1 := by
    change Continuous fun w => (g w).2.1 / (1 - (g w).2.2.1)
    fun_prop (disch := assumption)
  have c2 : Continuous fun w => (R (g w)).2.1 := by
    change Continuous fun w => (g w).2.1 / (1 + (g w).2.2.1)
    fun_prop (disch := assumption)
  have cAB : Continuous fun w => 2 / (1 - (C (g w)).1 ^ 2) - (R (g w)).1 - (R (g w)).2.1 := by
    fun_prop (disch := assumption)
  have p3 : ∀ w, 0 < (R (g w)).2.2.1 := fun w => by
    linarith [(hB w).horizon, Real.sqrt_nonneg (1 - (g w).1 ^ 2)]
  have n12 : ∀ w, (R (g w)).1 * (R (g w)).2.1 * (1 - (C (g w)).1 ^ 2) ≠ 0 := fun w => by
    have h1 := p3 w; have h2 := (hB w).r32; have h3 := (hB w).r21
    exact mul_ne_zero (mul_ne_zero (by linarith) (by linarith)) (hE w)
  have cP : Continuous fun w => (g w).1 ^ 2 * (C (g w)).2.2 / ((R (g w)).1 * (R (g w)).2.1 * (1 - (C (g w)).1 ^ 2)) := by
    fun_prop (disch := assumption)
  have c3 : Continuous fun w => (R (g w)).2.2.1 :=
    (cAB.add ((cAB.pow 2).sub (cP.const_mul 4)).sqrt).div_const 2
  have c4 : Continuous fun w => (R (g w)).2.2.2 := cP.div c3 fun w => (p3 w).ne'
  refine ⟨by fun_prop, by fun_prop, by fun_prop, c1, c2, c3, c4, ?_, ?_, hB, hP⟩
  · change Continuous fun w => 1 - (g w).2.2.2 ^ 2
    fun_prop
  · intro w
    obtain ⟨⟨h1, h2⟩, -⟩ := hS w
    nlinarith

end

/-- Frequencies as a function of the parameters. -/
noncomputable def M (v : ℝ × ℝ × ℝ × ℝ) : MinoFreqs := pureMino v.1 v.2.1 v.2.2.1 v.2.2.2

section
variable {rs : RootScalar} {X : Type*} [TopologicalSpace X] {g : X → ℝ × ℝ × ℝ × ℝ} (cg : Continuous g)
  (hg : ∀ w, g w ∈ Spec.TrajectoryDomain rs)
include cg hg

lemma c_M : (Continuous fun w => (M (g w)).upsilonR) ∧ (Continuous fun w => (M (g w)).upsilonTheta)
    ∧ (Continuous fun w => (M (g w)).upsilonPhi) ∧ (Continuous fun w => (M (g w)).gamma)
    ∧ ∀ w, 0 < (M (g w)).gamma := by
  have F := family cg hg
  have key : ∀ w, (M (g w)).upsilonR = rFrequencyCore (C (g w)).1 ((R (g w)).1, (R (g w)).2.1, (R (g w)).2.2.1,
        (R (g w)).2.2.2)
      ∧ (M (g w)).upsilonTheta = π * polarW (g w).1 (C (g w)).1 (C (g w)).2.1 (Z (g w)).1
          / (2 * ellipk (mT (g w).1 (Z (g w)).1 (Z (g w)).2))
      ∧ (M (g w)).upsilonPhi = phiT (g w).1 (C (g w)).2.1 (Z (g w)).1 (Z (g w)).2
          + phiR (g w).1 (C (g w)).1 (C (g w)).2.1 (R (g w)).1 (R (g w)).2.1 (R (g w)).2.2.1 (R (g w)).2.2.2
      ∧ (M (g w)).gamma = 4 * (C (g w)).1 + gammaT (g w).1 (C (g w)).1 (C (g w)).2.1 (Z (g w)).1 (Z (g w)).2
          + gammaR (g w).1 (C (g w)).1 (C (g w)).2.1 (R (g w)).1 (R (g w)).2.1 (R (g w)).2.2.1 (R (g w)).2.2.2
      ∧ 0 < (M (g w)).gamma := by
    intro w
    obtain ⟨T, m, -, -, hb, D, hpos⟩ := data (hg w) ⟨0, 0, 0, 0⟩
    have hm : M (g w) = m := D.hm.symm
    rw [hm]
    exact ⟨D.upsilonR, D.upsilonTheta hb.energy hb.nonpolar, D.upsilonPhi hb, D.gamma hb, hpos⟩
  refine ⟨?_, ?_, ?_, ?_, fun w => (key w).2.2.2.2⟩
  · simp only [fun w => (key w).1]; exact c_upsilonR F
  · simp only [fun w => (key w).2.1]; exact c_upsilonT F
  · simp only [fun w => (key w).2.2.1]; exact (c_phiT F).add (c_phiR F)
  · simp only [fun w => (key w).2.2.2.1]; exact ((F.cE.const_mul 4).add (c_gammaT F)).add (c_gammaR F)

end

end Cont

/-- **C58, Mino frequencies.** -/
theorem C58_mino_frequencies_continuous (rs : RootScalar) :
    ∃ F : ℝ × ℝ × ℝ × ℝ → ℝ × ℝ × ℝ × ℝ, ContinuousOn F (Spec.TrajectoryDomain rs)
      ∧ ∀ v ∈ Spec.TrajectoryDomain rs, ∃ m, minoFrequencies rs v.1 v.2.1 v.2.2.1 v.2.2.2 = .ok m
        ∧ F v = (m.upsilonR, m.upsilonTheta, m.upsilonPhi, m.gamma) := by
  refine ⟨fun v => ((Cont.M v).upsilonR, (Cont.M v).upsilonTheta, (Cont.M v).upsilonPhi, (Cont.M v).gamma), ?_, ?_⟩
  · rw [continuousOn_iff_continuous_restrict]
    obtain ⟨h1, h2, h3, h4, -⟩ := Cont.c_M (X := Spec.TrajectoryDomain rs) continuous_subtype_val fun w => w.2
    exact h1.prodMk (h2.prodMk (h3.prodMk h4))
  · intro v hv
    obtain ⟨T, m, -, hm, -, D, -⟩ := Cont.data hv ⟨0, 0, 0, 0⟩
    refine ⟨m, hm, ?_⟩
    have : Cont.M v = m := D.hm.symm
    simp only [this]

/-- **C58, frequencies in Boyer–Lindquist time.** -/
theorem C58_fundamental_frequencies_continuous (rs : RootScalar) :
    ∃ F : ℝ × ℝ × ℝ × ℝ → ℝ × ℝ × ℝ, ContinuousOn F (Spec.TrajectoryDomain rs)
      ∧ ∀ v ∈ Spec.TrajectoryDomain rs, fundamentalFrequencies rs v.1 v.2.1 v.2.2.1 v.2.2.2 = .ok (F v) := by
  refine ⟨fun v => ((Cont.M v).upsilonR / (Cont.M v).gamma, (Cont.M v).upsilonTheta / (Cont.M v).gamma,
    (Cont.M v).upsilonPhi / (Cont.M v).gamma), ?_, ?_⟩
  · rw [continuousOn_iff_continuous_restrict]
    obtain ⟨h1, h2, h3, h4, h5⟩ := Cont.c_M (X := Spec.TrajectoryDomain rs) continuous_subtype_val fun w => w.2
    have h5' := fun w => (h5 w).ne'
    exact (h1.div h4 h5').prodMk ((h2.div h4 h5').prodMk (h3.div h4 h5'))
  · intro v hv
    obtain ⟨T, m, -, hm, -, D, -⟩ := Cont.data hv ⟨0, 0, 0, 0⟩
    rw [minoFrequencies_eq, guard_bind_ok_iff] at hm
    rw [fundamentalFrequencies_eq, hm.1, bind_ok, sa_of_nonneg hv.2.1, sx_of_nonneg hv.2.1]
    rfl

/-- **C58, trajectories.** The four coordinates returned by `stable_trajectory(a, p, e, x, (qt, qr, qθ, qφ))` at Mino time
`λ` are jointly continuous in `(a, p, e, x)`, the initial phases and `λ`. -/
theorem C58_trajectory_continuous (rs : RootScalar) :
    ∃ F : ℝ × ℝ × ℝ × ℝ → ℝ × ℝ × ℝ × ℝ → ℝ → ℝ × ℝ × ℝ × ℝ,
      ContinuousOn (fun w : (ℝ × ℝ × ℝ × ℝ) × (ℝ × ℝ × ℝ × ℝ) × ℝ => F w.1 w.2.1 w.2.2)
        (Spec.TrajectoryDomain rs ×ˢ Set.univ)
      ∧ ∀ v ∈ Spec.TrajectoryDomain rs, ∀ qt qr qtheta qphi, ∃ T : Traj,
        stableTrajectoryNat rs v.1 v.2.1 v.2.2.1 v.2.2.2 ⟨qt, qr, qtheta, qphi⟩ = .ok T
        ∧ ∀ lam, F v (qt, qr, qtheta, qphi) lam = (T.t lam, T.r lam, T.theta lam, T.phi lam) := by
  let asm : ℝ × ℝ × ℝ × ℝ → ℝ × ℝ × ℝ × ℝ → Traj := fun v q =>
    assembleTrajectory (radialSolutions v.1 ((Cont.C v).1, (Cont.C v).2.1, (Cont.C v).2.2)
      ((Cont.R v).1, (Cont.R v).2.1, (Cont.R v).2.2.1, (Cont.R v).2.2.2))
      (polarSolutionsCore v.1 ((Cont.C v).1, (Cont.C v).2.1, (Cont.C v).2.2) (Cont.Z v).1 (Cont.Z v).2) (Cont.M v)
      ⟨q.1, q.2.1, q.2.2.1, q.2.2.2⟩
  refine ⟨fun v q lam => ((asm v q).t lam, (asm v q).r lam, (asm v q).theta lam, (asm v q).phi lam), ?_, ?_⟩
  · rw [continuousOn_iff_continuous_restrict]
    have cg : Continuous fun w : (Spec.TrajectoryDomain rs ×ˢ (Set.univ : Set ((ℝ × ℝ × ℝ × ℝ) × ℝ))) => w.1.1 := by
      fun_prop
    have hg : ∀ w : (Spec.TrajectoryDomain rs ×ˢ (Set.univ : Set ((ℝ × ℝ × ℝ × ℝ) × ℝ))),
        w.1.1 ∈ Spec.TrajectoryDomain rs := fun w => w.2.1
    have F := Cont.family cg hg
    obtain ⟨m1, m2, m3, m4, -⟩ := Cont.c_M cg hg
    have qr : Continuous fun w : (Spec.TrajectoryDomain rs ×ˢ (Set.univ : Set ((ℝ × ℝ × ℝ × ℝ) × ℝ))) => w.1.2.1.2.1 := by
      fun_prop
    have qθ : Continuous fun w : (Spec.TrajectoryDomain rs ×ˢ (Set.univ : Set ((ℝ × ℝ × ℝ × ℝ) × ℝ))) => w.1.2.1.2.2.1 := by
      fun_prop
    have ql : Continuous fun w : (Spec.TrajectoryDomain rs ×ˢ (Set.univ : Set ((ℝ × ℝ × ℝ × ℝ) × ℝ))) => w.1.2.2 := by
      fun_prop
    have pr := (m1.mul ql).add qr
    have pθ := (m2.mul ql).add qθ
    refine Continuous.prodMk ?_ (Continuous.prodMk (Cont.c_r F pr) (Continuous.prodMk (Cont.c_theta F pθ) ?_))
    · exact ((((by fun_prop : Continuous fun w : (Spec.TrajectoryDomain rs ×ˢ
        (Set.univ : Set ((ℝ × ℝ × ℝ × ℝ) × ℝ))) => w.1.2.1.1).add (m4.mul ql)).add (Cont.c_Rdt F pr)).add
        (Cont.c_Tdt F pθ)).sub ((Cont.c_Rdt F qr).add (Cont.c_Tdt F qθ))
    · exact ((((by fun_prop : Continuous fun w : (Spec.TrajectoryDomain rs ×ˢ
        (Set.univ : Set ((ℝ × ℝ × ℝ × ℝ) × ℝ))) => w.1.2.1.2.2.2).add (m3.mul ql)).add (Cont.c_Rdphi F pr)).add
        (Cont.c_Tdphi F pθ)).sub ((Cont.c_Rdphi F qr).add (Cont.c_Tdphi F qθ))
  · intro v hv qt qr qtheta qphi
    obtain ⟨T, m, hT, hm, hb, D, -⟩ := Cont.data hv ⟨qt, qr, qtheta, qphi⟩
    refine ⟨T, hT, fun lam => ?_⟩
    have hM : Cont.M v = m := D.hm.symm
    rw [D.hT]
    simp only [asm, hM]

/-- Retrograde orbits with `p > 12` are in the domain. -/
lemma trajectoryDomain_wide (rs : RootScalar) {a p e x : ℝ} (ha : 0 ≤ a) (ha1 : a < 1) (hp : 12 < p) (he : 0 ≤ e)
    (he1 : e < 1) (hx : -1 ≤ x) (hx0 : x < 0) : (a, p, e, x) ∈ Spec.TrajectoryDomain rs :=
  ⟨C11_accepts_wide rs _ _ _ _ (by rwa [abs_of_nonneg ha]) he he1.le (abs_le.mpr ⟨hx, by linarith⟩) (by linarith), ha,
    he1.ne, hx0.ne, fun h => absurd hx0 (not_lt.mpr h.le), Or.inl hx0⟩

/-- Non-vacuity: inclined eccentric orbits around slowly rotating holes converge to the circular equatorial orbit around
the Schwarzschild hole, whose frequencies and trajectory come from other branches of the code. -/
example (rs : RootScalar) (q : Phases) (lam : ℝ) : ∃ T : ℕ → Traj, ∃ T₀ : Traj,
    (∀ n : ℕ, stableTrajectoryNat rs (1 / (n + 2)) 13 (1 / (n + 2)) (-1 + 1 / (n + 2)) q = .ok (T n))
    ∧ stableTrajectoryNat rs 0 13 0 (-1) q = .ok T₀ ∧ Tendsto (fun n => (T n).t lam) atTop (𝓝 (T₀.t lam)) := by
  obtain ⟨F, hF, hc⟩ := C58_trajectory_continuous rs
  have h0 : ((0:ℝ), (13:ℝ), (0:ℝ), (-1:ℝ)) ∈ Spec.TrajectoryDomain rs :=
    trajectoryDomain_wide rs le_rfl (by norm_num) (by norm_num) le_rfl (by norm_num) (by norm_num) (by norm_num)
  have hn : ∀ n : ℕ, ((1 / (n + 2) : ℝ), (13:ℝ), (1 / (n + 2) : ℝ), (-1 + 1 / (n + 2) : ℝ)) ∈ Spec.TrajectoryDomain rs := by
    intro n
    have h1 : (0:ℝ) < n + 2 := by positivity
    have h2 : 1 / ((n:ℝ) + 2) < 1 := by rw [div_lt_one h1]; linarith [(Nat.cast_nonneg n : (0:ℝ) ≤ n)]
    have h3 : 0 < 1 / ((n:ℝ) + 2) := by positivity
    exact trajectoryDomain_wide rs h3.le h2 (by norm_num) h3.le h2 (by linarith) (by linarith)
  choose T hT hTF using fun n => hc _ (hn n) q.qt q.qr q.qtheta q.qphi
  obtain ⟨T₀, hT₀, hTF₀⟩ := hc _ h0 q.qt q.qr q.qtheta q.qphi
  refine ⟨T, T₀, hT, hT₀, ?_⟩
  have ht : Tendsto (fun n : ℕ => 1 / ((n:ℝ) + 2)) atTop (𝓝 0) := by
    have := (tendsto_natCast_atTop_atTop (R := ℝ)).atTop_add (tendsto_const_nhds (x := (2:ℝ)))
    simp only [one_div]
    exact this.inv_tendsto_atTop
  have hx : Tendsto (fun n : ℕ => -1 + 1 / ((n:ℝ) + 2)) atTop (𝓝 (-1)) := by
    simpa only [add_zero] using (tendsto_const_nhds (x := (-1:ℝ))).add ht
  have ht4 : Tendsto (fun n : ℕ => (((1 / ((n:ℝ) + 2)), (13:ℝ), (1 / ((n:ℝ) + 2)), (-1 + 1 / ((n:ℝ) + 2))),
      (q.qt, q.qr, q.qtheta, q.qphi), lam)) atTop
      (𝓝[Spec.TrajectoryDomain rs ×ˢ Set.univ] ((0, 13, 0, -1), (q.qt, q.qr, q.qtheta, q.qphi), lam)) :=
    tendsto_nhdsWithin_iff.mpr ⟨(ht.prodMk_nhds (tendsto_const_nhds.prodMk_nhds (ht.prodMk_nhds hx))).prodMk_nhds
      tendsto_const_nhds, Eventually.of_forall fun n => ⟨hn n, trivial⟩⟩
  have := (hF _ ⟨h0, trivial⟩).tendsto.comp ht4
  have h2 := (continuous_fst.tendsto _).comp this
  simp only [hTF₀] at h2
  refine h2.congr fun n => ?_
  simp only [Function.comp_apply, hTF n]

end KGP
