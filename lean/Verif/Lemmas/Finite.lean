import Verif.Model.Finite
import Verif.Lemmas.Carlson

/-!
# Lemmas for C76: when the operations of `Fl` give a number
-/

namespace KGP

open Classical Real

namespace Fl
variable {u v w : Fl} {x y z : ℝ}

lemma num (n : ℕ) [n.AtLeastTwo] : (OfNat.ofNat n : Fl) = fin (OfNat.ofNat n) := rfl
lemma zero : (0 : Fl) = fin 0 := rfl
lemma one : (1 : Fl) = fin 1 := rfl

lemma part_fin {P : ℝ → Prop} {f : ℝ → ℝ} (h : u = fin x) (hP : P x) : part P f u = fin (f x) := by
  subst h; exact if_pos hP

lemma part2_fin {P : ℝ → ℝ → Prop} {f : ℝ → ℝ → ℝ} (h : u = fin x) (k : v = fin y) (hP : P x y) :
    part2 P f u v = fin (f x y) := by
  subst h; subst k; exact if_pos hP

lemma add (h : u = fin x) (k : v = fin y) : u + v = fin (x + y) := part2_fin (f := (· + ·)) h k trivial
lemma sub (h : u = fin x) (k : v = fin y) : u - v = fin (x - y) := part2_fin (f := (· - ·)) h k trivial
lemma mul (h : u = fin x) (k : v = fin y) : u * v = fin (x * y) := part2_fin (f := (· * ·)) h k trivial
lemma div (h : u = fin x) (k : v = fin y) (hy : y ≠ 0) : u / v = fin (x / y) :=
  part2_fin (P := fun _ y => y ≠ 0) (f := (· / ·)) h k hy
lemma neg (h : u = fin x) : -u = fin (-x) := by subst h; rfl
lemma pow (h : u = fin x) (n : ℕ) : u ^ n = fin (x ^ n) := by subst h; rfl
lemma sqrt' (h : u = fin x) (hx : 0 ≤ x) : sqrt u = fin (√x) := part_fin h hx
lemma sin' (h : u = fin x) : sin u = fin (Real.sin x) := by subst h; rfl
lemma cos' (h : u = fin x) : cos u = fin (Real.cos x) := by subst h; rfl
lemma sign' (h : u = fin x) : sign u = fin (Real.sign x) := by subst h; rfl
lemma abs' (h : u = fin x) : abs u = fin |x| := by subst h; rfl
lemma copysign' (h : u = fin x) : map copysign1 u = fin (copysign1 x) := by subst h; rfl
lemma arcsin_sin (h : u = fin x) : arcsin (sin u) = fin (Real.arcsin (Real.sin x)) := by
  subst h; exact part_fin rfl ⟨Real.neg_one_le_sin x, Real.sin_le_one x⟩
lemma arccos' (h : u = fin x) (h1 : -1 ≤ x ∧ x ≤ 1) : arccos u = fin (Real.arccos x) := part_fin h h1
lemma ellipk' (h : u = fin x) (h1 : x < 1) : ellipk u = fin (KGP.ellipk x) := part_fin h h1
lemma ellipe' (h : u = fin x) (h1 : x < 1) : ellipe u = fin (KGP.ellipe x) := part_fin h h1.le
lemma ellipjSn' (h : u = fin x) (k : v = fin y) (h1 : 0 ≤ y ∧ y < 1) :
    ellipjSn u v = fin (ellipj x y).sn :=
  part2_fin (P := fun _ m => 0 ≤ m ∧ m ≤ 1) (f := fun u m => (ellipj u m).sn) h k ⟨h1.1, h1.2.le⟩
lemma ellipjCn' (h : u = fin x) (k : v = fin y) (h1 : 0 ≤ y ∧ y < 1) :
    ellipjCn u v = fin (ellipj x y).cn :=
  part2_fin (P := fun _ m => 0 ≤ m ∧ m ≤ 1) (f := fun u m => (ellipj u m).cn) h k ⟨h1.1, h1.2.le⟩
lemma ellipjPh' (h : u = fin x) (k : v = fin y) (h1 : 0 ≤ y ∧ y < 1) :
    ellipjPh u v = fin (ellipj x y).ph :=
  part2_fin (P := fun _ m => 0 ≤ m ∧ m ≤ 1) (f := fun u m => (ellipj u m).ph) h k ⟨h1.1, h1.2.le⟩
lemma elliprf' (h : u = fin x) (k : v = fin y) (h1 : 0 ≤ x) (h2 : 0 < y) :
    elliprf1 u v = fin (elliprf x y 1) :=
  part2_fin (P := fun x y => 0 ≤ x ∧ 0 ≤ y ∧ 0 < x + y) (f := fun x y => elliprf x y 1) h k
    ⟨h1, h2.le, by linarith⟩
lemma elliprd' (h : u = fin x) (k : v = fin y) (h1 : 0 ≤ x) (h2 : 0 < y) :
    elliprd1 u v = fin (elliprd x y 1) :=
  part2_fin (P := fun x y => 0 ≤ x ∧ 0 ≤ y ∧ 0 < x + y) (f := fun x y => elliprd x y 1) h k
    ⟨h1, h2.le, by linarith⟩
lemma elliprj' (h : u = fin x) (k : v = fin y) (l : w = fin z) (h1 : 0 ≤ x) (h2 : 0 < y) (h3 : z ≠ 0) :
    elliprj1 u v w = fin (elliprj x y 1 z) := by
  subst l
  exact part2_fin (P := fun x y => 0 ≤ x ∧ 0 ≤ y ∧ 0 < x + y ∧ z ≠ 0) (f := fun x y => elliprj x y 1 z) h k
    ⟨h1, h2.le, by linarith, h3⟩

/-- division by zero -/
lemma div_zero (k : v = fin 0) : u / v = exc := by
  subst k
  cases u
  · exact if_neg (fun h => h rfl)
  · rfl

lemma sqrt_neg (h : u = fin x) (hx : x < 0) : sqrt u = exc := by
  subst h; exact if_neg (not_le.mpr hx)

lemma mul_exc_right : u * exc = exc := by cases u <;> rfl
lemma mul_exc_left : exc * u = exc := by cases u <;> rfl
lemma add_exc_right : u + exc = exc := by cases u <;> rfl
lemma add_exc_left : exc + u = exc := by cases u <;> rfl
lemma sub_exc_right : u - exc = exc := by cases u <;> rfl
lemma sub_exc_left : exc - u = exc := by cases u <;> rfl
lemma div_exc_left : exc / u = exc := by cases u <;> rfl
lemma div_exc_right : u / exc = exc := by cases u <;> rfl
lemma sqrt_exc : sqrt exc = exc := rfl
lemma neg_exc : -exc = exc := rfl
lemma pow_exc (n : ℕ) : exc ^ n = exc := rfl

end Fl

lemma floor_floor (x : ℝ) : ⌊((⌊x⌋ : ℤ) : ℝ)⌋ = ⌊x⌋ := Int.floor_intCast _

/-- One step of evaluating an expression of `Fl`. -/
macro "fl1" : tactic => `(tactic| first
  | with_reducible assumption
  | with_reducible exact Fl.zero
  | with_reducible exact Fl.one
  | with_reducible exact Fl.num _
  | with_reducible exact rfl
  | with_reducible refine Fl.add ?_ ?_
  | with_reducible refine Fl.sub ?_ ?_
  | with_reducible refine Fl.mul ?_ ?_
  | with_reducible refine Fl.div ?_ ?_ ?_
  | with_reducible refine Fl.neg ?_
  | with_reducible refine Fl.pow ?_ _
  | with_reducible refine Fl.sqrt' ?_ ?_
  | with_reducible refine Fl.ellipk' ?_ ?_
  | with_reducible refine Fl.ellipe' ?_ ?_
  | with_reducible refine Fl.ellipjSn' ?_ ?_ ?_
  | with_reducible refine Fl.ellipjCn' ?_ ?_ ?_
  | with_reducible refine Fl.ellipjPh' ?_ ?_ ?_
  | with_reducible refine Fl.elliprf' ?_ ?_ ?_ ?_
  | with_reducible refine Fl.elliprd' ?_ ?_ ?_ ?_
  | with_reducible refine Fl.elliprj' ?_ ?_ ?_ ?_ ?_ ?_
  | with_reducible refine Fl.arcsin_sin ?_
  | with_reducible refine Fl.arccos' ?_ ?_
  | with_reducible refine Fl.sin' ?_
  | with_reducible refine Fl.cos' ?_
  | with_reducible refine Fl.sign' ?_
  | with_reducible refine Fl.abs' ?_
  | with_reducible refine Fl.copysign' ?_)

/-- Evaluate; what remains are the domain conditions. -/
macro "fl" : tactic => `(tactic| repeat' fl1)

section
variable {vphi vm vn : Fl} {φ m n : ℝ}

lemma one_sub_pos (hm : m < 1) (y : ℝ) : 0 < 1 - m * Real.sin y ^ 2 := by
  have h1 := Real.sin_sq_le_one y
  have h2 := sq_nonneg (Real.sin y)
  rcases le_total m 0 with h | h
  · have := mul_nonneg (neg_nonneg.mpr h) h2
    linarith
  · have := mul_le_mul_of_nonneg_left h1 h
    linarith

lemma ellippiN_fin (hn : vn = .fin n) (hm : vm = .fin m) (h1 : n < 1) (h2 : m < 1) :
    ellippiN vn vm = .fin (ellippiK n m) := by
  unfold ellippiN ellippiK
  fl
  all_goals first | linarith | norm_num

lemma ellipeincN_fin (hp : vphi = .fin φ) (hm : vm = .fin m) (h2 : m < 1) :
    ellipeincN vphi vm = .fin (ellipeincK φ m) := by
  subst hp
  subst hm
  have hpi : π / 2 ≠ 0 := by positivity
  have hf : Fl.floor ((.fin φ : Fl) / ((π : Fl) / 2)) = .fin (⌊φ / (π / 2)⌋ : ℝ) := by
    have : (.fin φ : Fl) / ((π : Fl) / 2) = .fin (φ / (π / 2)) := by
      fl
      · norm_num
    rw [this]; rfl
  unfold ellipeincN ellipeincK
  simp only [hf, floor_floor]
  have h0 : 0 < 1 - m * Real.sin |Real.arcsin (Real.sin φ)| ^ 2 := one_sub_pos h2 _
  have h3 := sq_nonneg (Real.cos |Real.arcsin (Real.sin φ)|)
  split_ifs
  all_goals fl
  all_goals norm_num

lemma ellippiincN_fin (hp : vphi = .fin φ) (hn : vn = .fin n) (hm : vm = .fin m) (h1 : n < 1) (h2 : m < 1) :
    ellippiincN vphi vn vm = .fin (ellippiincK φ n m) := by
  have hpi : π / 2 ≠ 0 := by positivity
  have hf : Fl.floor (vphi / ((π : Fl) / 2)) = .fin (⌊φ / (π / 2)⌋ : ℝ) := by
    have : vphi / ((π : Fl) / 2) = .fin (φ / (π / 2)) := by
      fl
      · norm_num
    rw [this]; rfl
  unfold ellippiincN ellippiincK
  simp only [hf, floor_floor]
  have h0 : 0 < 1 - m * Real.sin |Real.arcsin (Real.sin φ)| ^ 2 := one_sub_pos h2 _
  have h0n := (one_sub_pos h1 |Real.arcsin (Real.sin φ)|).ne'
  have h3 := sq_nonneg (Real.cos |Real.arcsin (Real.sin φ)|)
  have h4 := ellippiN_fin hn hm h1 h2
  split_ifs
  all_goals fl
  all_goals norm_num

end

/-- What is used about the geodesic. -/
structure FinGeo (a E L r1 r2 r3 r4 zm zp : ℝ) : Prop where
  ha : a ^ 2 < 1
  hE : E ^ 2 < 1
  hL : L ≠ 0
  h43 : r4 ≤ r3
  h32 : r3 < r2
  h21 : r2 ≤ r1
  hor : 1 + √(1 - a ^ 2) < r3
  zm0 : 0 ≤ zm
  zm1 : zm < 1
  zp1 : a ≠ 0 → 1 < zp

/-- The values are numbers. -/
structure FinVals (E L Q r1 r2 r3 r4 : ℝ) (vE vL vQ v1 v2 v3 v4 : Fl) : Prop where
  hE : vE = .fin E
  hL : vL = .fin L
  hQ : vQ = .fin Q
  h1 : v1 = .fin r1
  h2 : v2 = .fin r2
  h3 : v3 = .fin r3
  h4 : v4 = .fin r4

namespace FinGeo
variable {a E L Q r1 r2 r3 r4 zm zp : ℝ} {vE vL vQ v1 v2 v3 v4 vm vp : Fl}

lemma rad_nonneg (H : FinGeo a E L r1 r2 r3 r4 zm zp) :
    0 ≤ (r1 - r2) * (r3 - r4) / ((r1 - r3) * (r2 - r4)) := by
  obtain ⟨-, -, -, h1, h2, h3, -⟩ := H
  exact div_nonneg (mul_nonneg (by linarith) (by linarith)) (mul_nonneg (by linarith) (by linarith))

lemma k2_lt (H : FinGeo a E L r1 r2 r3 r4 zm zp) :
    0 ≤ √((r1 - r2) * (r3 - r4) / ((r1 - r3) * (r2 - r4))) ^ 2
    ∧ √((r1 - r2) * (r3 - r4) / ((r1 - r3) * (r2 - r4))) ^ 2 < 1 := by
  refine ⟨by positivity, ?_⟩
  rw [Real.sq_sqrt H.rad_nonneg]
  obtain ⟨-, -, -, h1, h2, h3, -⟩ := H
  rw [div_lt_one (mul_pos (by linarith) (by linarith))]
  have : 0 < (r1 - r4) * (r2 - r3) := mul_pos (by linarith) (by linarith)
  linarith

lemma h_lt {c : ℝ} (H : FinGeo a E L r1 r2 r3 r4 zm zp) (hc : c < r3) :
    (r1 - r2) * (r3 - c) / ((r1 - r3) * (r2 - c)) < 1 := by
  obtain ⟨-, -, -, h1, h2, h3, -⟩ := H
  rw [div_lt_one (mul_pos (by linarith) (by linarith))]
  have : 0 < (r1 - c) * (r2 - r3) := mul_pos (by linarith) (by linarith)
  linarith

lemma hR_lt (H : FinGeo a E L r1 r2 r3 r4 zm zp) : (r1 - r2) / (r1 - r3) < 1 := by
  obtain ⟨-, -, -, h1, h2, h3, -⟩ := H
  rw [div_lt_one (by linarith)]; linarith

lemma kT_lt (H : FinGeo a E L r1 r2 r3 r4 zm zp) (ha : a ≠ 0) :
    0 ≤ zm / zp ∧ 0 ≤ √(zm / zp) ^ 2 ∧ √(zm / zp) ^ 2 < 1 := by
  have h1 := H.zp1 ha
  have h2 : 0 ≤ zm / zp := div_nonneg H.zm0 (by linarith)
  refine ⟨h2, by positivity, ?_⟩
  rw [Real.sq_sqrt h2, div_lt_one (by linarith)]
  linarith [H.zm1]

lemma e0zp_pos (H : FinGeo a E L r1 r2 r3 r4 zm zp) : 0 < e0zpOf a E L zm := by
  have h1 : 0 < 1 - zm := by linarith [H.zm1]
  have h2 : 0 < L ^ 2 := by have := H.hL; positivity
  have h3 : 0 < 1 - E ^ 2 := by linarith [H.hE]
  unfold e0zpOf
  have : 0 ≤ a ^ 2 * (1 - E ^ 2) * (1 - zm) := by positivity
  exact div_pos (by linarith) (mul_pos h2 h1)

lemma kRN_fin (H : FinGeo a E L r1 r2 r3 r4 zm zp) (h1 : v1 = .fin r1) (h2 : v2 = .fin r2) (h3 : v3 = .fin r3)
    (h4 : v4 = .fin r4) :
    kRN (v1, v2, v3, v4) = .fin √((r1 - r2) * (r3 - r4) / ((r1 - r3) * (r2 - r4))) := by
  have k := H.rad_nonneg
  obtain ⟨-, -, -, k1, k2, k3, -⟩ := H
  have : (r1 - r3) * (r2 - r4) ≠ 0 := (mul_pos (by linarith) (by linarith)).ne'
  simp only [kRN]
  fl

lemma rFrequencyN_fin (H : FinGeo a E L r1 r2 r3 r4 zm zp) (hE : vE = .fin E) (h1 : v1 = .fin r1)
    (h2 : v2 = .fin r2) (h3 : v3 = .fin r3) (h4 : v4 = .fin r4) :
    rFrequencyN vE (v1, v2, v3, v4) = .fin (rFrequencyCore E (r1, r2, r3, r4)) := by
  have hk := H.kRN_fin h1 h2 h3 h4
  have hk2 := H.k2_lt.2
  have hK := (ellipk_pos hk2).ne'
  obtain ⟨-, kE, -, k1, k2, k3, -⟩ := H
  have hs : 0 ≤ (1 - E ^ 2) * (r1 - r3) * (r2 - r4) :=
    mul_nonneg (mul_nonneg (by linarith) (by linarith)) (by linarith)
  simp only [rFrequencyN, rFrequencyCore, kR]
  fl
  simpa using hK

lemma e0zpN_fin (H : FinGeo a E L r1 r2 r3 r4 zm zp) (hE : vE = .fin E) (hL : vL = .fin L) (hm : vm = .fin zm) :
    e0zpN a vE vL vm = .fin (e0zpOf a E L zm) := by
  have h1 : 0 < 1 - zm := by linarith [H.zm1]
  have h2 : 0 < L ^ 2 := by have := H.hL; positivity
  have := (mul_pos h2 h1).ne'
  unfold e0zpN e0zpOf
  fl

/-- The divisors and the arguments of the radial formulas. -/
lemma facts (H : FinGeo a E L r1 r2 r3 r4 zm zp) :
    0 ≤ 1 - a ^ 2 ∧ r1 - r3 ≠ 0
    ∧ (r1 - r3) * (r2 - (1 + √(1 - a ^ 2))) ≠ 0 ∧ (r1 - r3) * (r2 - (1 - √(1 - a ^ 2))) ≠ 0
    ∧ (r1 - r3) * (r2 - r4) ≠ 0
    ∧ r3 - (1 + √(1 - a ^ 2)) ≠ 0 ∧ r3 - (1 - √(1 - a ^ 2)) ≠ 0
    ∧ r2 - (1 + √(1 - a ^ 2)) ≠ 0 ∧ r2 - (1 - √(1 - a ^ 2)) ≠ 0
    ∧ 1 + √(1 - a ^ 2) - (1 - √(1 - a ^ 2)) ≠ 0
    ∧ 0 ≤ (1 - E ^ 2) * (r1 - r3) * (r2 - r4) ∧ √((1 - E ^ 2) * (r1 - r3) * (r2 - r4)) ≠ 0
    ∧ (r1 - r2) * (r3 - (1 + √(1 - a ^ 2))) / ((r1 - r3) * (r2 - (1 + √(1 - a ^ 2)))) < 1
    ∧ (r1 - r2) * (r3 - (1 - √(1 - a ^ 2))) / ((r1 - r3) * (r2 - (1 - √(1 - a ^ 2)))) < 1
    ∧ π ≠ 0 := by
  have hs : 0 < √(1 - a ^ 2) := Real.sqrt_pos.mpr (by linarith [H.ha])
  have hp := H.h_lt H.hor
  have hm := H.h_lt (c := 1 - √(1 - a ^ 2)) (by linarith [H.hor])
  obtain ⟨ka, kE, -, k1, k2, k3, k4, -⟩ := H
  have hE : 0 < (1 - E ^ 2) * (r1 - r3) * (r2 - r4) :=
    mul_pos (mul_pos (by linarith) (by linarith)) (by linarith)
  exact ⟨by linarith, by linarith, (mul_pos (by linarith) (by linarith)).ne',
    (mul_pos (by linarith) (by linarith)).ne', (mul_pos (by linarith) (by linarith)).ne', by linarith,
    by linarith, by linarith, by linarith, by linarith, hE.le, (Real.sqrt_pos.mpr hE).ne', hp, hm,
    Real.pi_pos.ne'⟩

lemma thetaFrequencyN_fin (H : FinGeo a E L r1 r2 r3 r4 zm zp) (ha : a ≠ 0) (p e x : ℝ) (hE : vE = .fin E)
    (hL : vL = .fin L) (hm : vm = .fin zm) (hp : vp = .fin zp) :
    thetaFrequencyN a p e x (vE, vL, vQ) (vm, vp) = .fin (thetaFrequencyCore a E L zm zp) := by
  obtain ⟨k0, -, k1⟩ := H.kT_lt ha
  have he := H.e0zpN_fin hE hL hm
  have he0 := H.e0zp_pos.le
  have hz : zp ≠ 0 := by linarith [H.zp1 ha]
  have hK := (ellipk_pos k1).ne'
  simp only [thetaFrequencyN, thetaFrequencyCore, if_neg ha]
  fl
  simpa using hK

lemma phiFrequencyN_fin (H : FinGeo a E L r1 r2 r3 r4 zm zp) (ha : a ≠ 0) (p e x : ℝ)
    (V : FinVals E L Q r1 r2 r3 r4 vE vL vQ v1 v2 v3 v4) (hm : vm = .fin zm) (hp : vp = .fin zp)
    {vR vT : Fl} {uR uT : ℝ} (hR : vR = .fin uR) (hT : vT = .fin uT) :
    phiFrequencyN a p e x (vE, vL, vQ) (v1, v2, v3, v4) (vm, vp) vR vT
      = .fin (phiFrequencyCore a (E, L, Q) (r1, r2, r3, r4) (zm, zp) uR uT) := by
  obtain ⟨hE, hL, hQ, h1, h2, h3, h4⟩ := V
  obtain ⟨k0, -, k1⟩ := H.kT_lt ha
  have he := H.e0zpN_fin hE hL hm
  have he0 := H.e0zp_pos.le
  have hes := (Real.sqrt_pos.mpr H.e0zp_pos).ne'
  have hz : zp ≠ 0 := by linarith [H.zp1 ha]
  have hzm := H.zm1
  have hk := H.kRN_fin h1 h2 h3 h4
  have hk2 := H.k2_lt.2
  obtain ⟨f0, f1, f2, f3, f4, f5, f6, f7, f8, f9, f10, f11, f12, f13, f14⟩ := H.facts
  have g1 : π * √(e0zpOf a E L zm) ≠ 0 := mul_ne_zero f14 hes
  have g2 : π * (1 + √(1 - a ^ 2) - (1 - √(1 - a ^ 2))) * √((1 - E ^ 2) * (r1 - r3) * (r2 - r4)) ≠ 0 :=
    mul_ne_zero (mul_ne_zero f14 f9) f11
  simp only [phiFrequencyN, phiFrequencyCore, if_neg ha, kR]
  repeat' (first | fl1 | with_reducible refine ellippiN_fin ?_ ?_ ?_ ?_)

lemma a2s_fin (H : FinGeo a E L r1 r2 r3 r4 zm zp) (hE : vE = .fin E) (hL : vL = .fin L)
    (hm : vm = .fin zm) (hp : a ≠ 0 → vp = .fin zp) :
    a2sqrtZpOverE0N a vE vL vm vp = .fin (a2sqrtZpOverE0 a E L zm zp) := by
  have h2 : 0 < L ^ 2 := by have := H.hL; positivity
  have h3 : 0 < 1 - E ^ 2 := by linarith [H.hE]
  have h4 : 0 < 1 - zm := by linarith [H.zm1]
  by_cases ha : a = 0
  · simp only [a2sqrtZpOverE0N, a2sqrtZpOverE0, if_pos ha]
    have := (mul_pos h3 (Real.sqrt_pos.mpr h4)).ne'
    have := h4.le
    fl
  · have hp := hp ha
    have hz := H.zp1 ha
    have h5 : 0 < a ^ 2 * (1 - E ^ 2) / L ^ 2 * zp := by positivity
    have := h5.le
    have := (Real.sqrt_pos.mpr h5).ne'
    have := h2.ne'
    simp only [a2sqrtZpOverE0N, a2sqrtZpOverE0, if_neg ha]
    fl

lemma kThetaN_fin (H : FinGeo a E L r1 r2 r3 r4 zm zp) (hm : vm = .fin zm) (hp : a ≠ 0 → vp = .fin zp) :
    kThetaN a vm vp = .fin (kThetaOf a zm zp) ∧ 0 ≤ kThetaOf a zm zp ^ 2 ∧ kThetaOf a zm zp ^ 2 < 1 := by
  by_cases ha : a = 0
  · simp only [kThetaN, kThetaOf, if_pos ha]
    exact ⟨rfl, by norm_num, by norm_num⟩
  · obtain ⟨k0, k1, k2⟩ := H.kT_lt ha
    have hz : zp ≠ 0 := by linarith [H.zp1 ha]
    have := hp ha
    simp only [kThetaN, kThetaOf, if_neg ha]
    exact ⟨by fl, k1, k2⟩

lemma gammaN_fin (H : FinGeo a E L r1 r2 r3 r4 zm zp)
    (V : FinVals E L Q r1 r2 r3 r4 vE vL vQ v1 v2 v3 v4) (hm : vm = .fin zm) (hp : a ≠ 0 → vp = .fin zp)
    {vR vT : Fl} {uR uT : ℝ} (hR : vR = .fin uR) (hT : vT = .fin uT) :
    gammaN a (vE, vL, vQ) (v1, v2, v3, v4) (vm, vp) vR vT
      = .fin (gammaCore a (E, L, Q) (r1, r2, r3, r4) (zm, zp) uR uT) := by
  obtain ⟨hE, hL, hQ, h1, h2, h3, h4⟩ := V
  have hs := H.a2s_fin hE hL hm hp
  obtain ⟨kt, -, k1⟩ := H.kThetaN_fin hm hp
  have hk := H.kRN_fin h1 h2 h3 h4
  have hk2 := H.k2_lt.2
  have hh := H.hR_lt
  obtain ⟨f0, f1, f2, f3, f4, f5, f6, f7, f8, f9, f10, f11, f12, f13, f14⟩ := H.facts
  have g1 : π * L ≠ 0 := mul_ne_zero f14 H.hL
  have g2 : π * √((1 - E ^ 2) * (r1 - r3) * (r2 - r4)) ≠ 0 := mul_ne_zero f14 f11
  have g3 : (2:ℝ) ≠ 0 := two_ne_zero
  simp only [gammaN, gammaCore, kR]
  repeat' (first | fl1 | with_reducible refine ellippiN_fin ?_ ?_ ?_ ?_)

end FinGeo

end KGP
