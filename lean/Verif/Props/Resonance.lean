import Verif.Props.EnergyOrder
import Verif.Props.Symmetry
import Verif.Props.Future
import Verif.Props.TrajectoryContinuity
import Verif.Props.ZoomWhirl
import Verif.Props.Kepler
import Verif.Props.Precession
import Mathlib.Topology.Instances.AddCircle.DenseSubgroup
import Mathlib.NumberTheory.Real.Irrational

/-!
# C73: resonant orbits close, all others fill the region between their turning points
-/

namespace KGP

open Classical Real Set Filter Topology

namespace Resonance

/-- Two incommensurable periods: after arbitrarily many periods `P` one comes arbitrarily close to any given phase of
the other period `S`. -/
lemma hit {P S δ : ℝ} (hP : 0 < P) (hS : 0 < S) (hirr : Irrational (P / S)) (hδ : 0 < δ) (l1 l2 l0 : ℝ) :
    ∃ n k : ℤ, l0 < l1 + n * P ∧ |l1 + n * P + k * S - l2| < δ := by
  -- a small step
  obtain ⟨n1, k1, hn1, hg0, hg⟩ : ∃ n1 k1 : ℤ, 0 < n1 ∧ (n1 * P + k1 * S ≠ 0) ∧ |n1 * P + k1 * S| < δ := by
    have hd := dense_addSubgroupClosure_pair_iff.mpr hirr
    obtain ⟨y, hy, hmem⟩ := hd.exists_mem_open (isOpen_Ioo (a := 0) (b := min δ S)) ⟨min δ S / 2, by
      have : 0 < min δ S := lt_min hδ hS
      constructor <;> linarith⟩
    rw [SetLike.mem_coe, AddSubgroup.mem_closure_pair] at hy
    obtain ⟨n, k, rfl⟩ := hy
    simp only [zsmul_eq_mul] at hmem
    obtain ⟨h1, h2⟩ := hmem
    have h3 := h2.trans_le (min_le_left _ _)
    have h4 := h2.trans_le (min_le_right _ _)
    rcases lt_trichotomy n 0 with hn | hn | hn
    · refine ⟨-n, -k, by omega, ?_, ?_⟩
      · push_cast; intro h; linarith
      · push_cast
        rw [show -(n:ℝ) * P + -(k:ℝ) * S = -(n * P + k * S) by ring, abs_neg, abs_of_pos h1]
        exact h3
    · exfalso
      rw [hn, Int.cast_zero, zero_mul, zero_add] at h1 h4
      have k0 : (0:ℝ) < k := (mul_pos_iff_of_pos_right hS).mp h1
      have k1 : (k:ℝ) < 1 := by
        by_contra h
        nlinarith
      have k0' : 0 < k := by exact_mod_cast k0
      have k1' : k < 1 := by exact_mod_cast k1
      omega
    · exact ⟨n, k, hn, h1.ne', by rw [abs_of_pos h1]; exact h3⟩
  obtain ⟨g, hgdef⟩ : ∃ g, g = n1 * P + k1 * S := ⟨_, rfl⟩
  rw [← hgdef] at hg0 hg
  -- start late
  obtain ⟨j0, hj0⟩ := exists_nat_gt ((l0 - l1) / P)
  rw [div_lt_iff₀ hP] at hj0
  have hn1' : (1:ℝ) ≤ n1 := by exact_mod_cast hn1
  -- then take small steps
  obtain ⟨k, j, hkj⟩ : ∃ (k : ℤ) (j : ℕ), |l1 + j0 * P + k * S + j * g - l2| < δ := by
    have key : ∀ {c : ℝ}, 0 < c → ∀ d : ℝ, 0 ≤ d → ∃ j : ℕ, j * c ≤ d ∧ d < j * c + c := fun {c} hc d hd => by
      refine ⟨⌊d / c⌋₊, ?_, ?_⟩
      · rw [← le_div_iff₀ hc]; exact Nat.floor_le (by positivity)
      · have := Nat.lt_floor_add_one (d / c)
        rw [div_lt_iff₀ hc] at this
        linarith
    rcases lt_or_gt_of_ne hg0 with hneg | hpos
    · obtain ⟨k, hk⟩ := exists_int_gt ((l2 - l1 - j0 * P) / S)
      rw [div_lt_iff₀ hS] at hk
      obtain ⟨j, e1, e2⟩ := key (neg_pos.mpr hneg) (l1 + j0 * P + k * S - l2) (by linarith)
      rw [abs_of_neg hneg] at hg
      refine ⟨k, j, ?_⟩
      rw [abs_lt]
      constructor <;> linarith
    · obtain ⟨k, hk⟩ := exists_int_lt ((l2 - l1 - j0 * P) / S)
      rw [lt_div_iff₀ hS] at hk
      obtain ⟨j, e1, e2⟩ := key hpos (l2 - (l1 + j0 * P + k * S)) (by linarith)
      rw [abs_of_pos hpos] at hg
      refine ⟨k, j, ?_⟩
      rw [abs_lt]
      constructor <;> linarith
  refine ⟨j0 + j * n1, k + j * k1, ?_, ?_⟩
  · push_cast
    have : 0 ≤ (j:ℝ) * n1 * P := by positivity
    linarith [add_mul (j0:ℝ) (j * n1) P]
  · push_cast
    rw [show l1 + ((j0:ℝ) + j * n1) * P + (k + j * k1) * S - l2 = l1 + j0 * P + k * S + j * g - l2 by rw [hgdef]; ring]
    exact hkj

/-- no positive integers `n u = k v` means that the ratio is irrational -/
lemma irr {u v : ℝ} (hu : 0 < u) (hv : 0 < v) (h : ∀ n k : ℕ, 0 < n → 0 < k → n * u ≠ k * v) : Irrational (u / v) := by
  rintro ⟨q, hq⟩
  have hq0 : (0:ℝ) < q := by rw [hq]; positivity
  have hq0' : 0 < q := by exact_mod_cast hq0
  have hnum : 0 < q.num := Rat.num_pos.mpr hq0'
  refine h q.den q.num.toNat q.den_pos (by omega) ?_
  have e1 : ((q.num.toNat : ℕ) : ℝ) = (q.num : ℝ) := by
    have : ((q.num.toNat : ℤ)) = q.num := Int.toNat_of_nonneg hnum.le
    exact_mod_cast this
  have e2 : (q:ℝ) = q.num / q.den := Rat.cast_def q
  have hd : (0:ℝ) < q.den := by exact_mod_cast q.den_pos
  rw [e1]
  rw [e2, div_eq_div_iff hd.ne' hv.ne'] at hq
  linarith

end Resonance

section
variable (rs : RootScalar) (a p e x : ℝ) (q : Phases) (h : Spec.BoundOrbit rs a p e x) (ha : 0 ≤ a) (he1 : e ≠ 1) (hx0 : x ≠ 0)
  (hp : 0 < x → p ≤ 4 → Spec.DivisorsNonzero a p e x)
  (hne : x < 0 ∨ ∀ E L Q, constantsOfMotion rs a p e x = .ok (E, L, Q) →
    E * ((1 + √(1 - a ^ 2)) ^ 2 + a ^ 2) ≠ a * L)
include h ha he1 hx0 hp hne

/-- After a common period of `r` and `θ`, `t` and `φ` have advanced by their mean rates. -/
lemma common_period {T : Traj} {m : MinoFreqs} (hT : stableTrajectoryNat rs a p e x q = .ok T)
    (hm : minoFrequencies rs a p e x = .ok m) (k j : ℤ) {c : ℝ} (h1 : c * m.upsilonR = k * (2 * π))
    (h2 : c * m.upsilonTheta = j * (2 * π)) (lam : ℝ) :
    T.t (lam + c) = T.t lam + m.gamma * c ∧ T.phi (lam + c) = T.phi lam + m.upsilonPhi * c := by
  obtain ⟨T', m', E, L, Q, r1, r2, r3, r4, hT', hm', hc, hr, hb, -⟩ := orbit_hyps q h ha he1 hx0 hp hne
  obtain rfl : T = T' := Except.ok.inj (hT.symm.trans hT')
  obtain ⟨m1, zm, zp, D⟩ := stableData_of ha hT hc hr
  obtain rfl := D.mino_eq hm
  have HP := D.polar hb.energy hb.nonpolar
  have HR := BoundGeodesic.config hb
  obtain ⟨p1, p2, -, -⟩ := HR.dt_dphi_osc (a := a) (E := E) (L := L) (Q := Q) (lt_trans hb.horizon hb.r32)
  obtain ⟨p3, p4⟩ := HP.dt_dphi_osc
  have e1 : m1.upsilonR * (lam + c) + q.qr = (m1.upsilonR * lam + q.qr) + k * (2 * π) := by rw [← h1]; ring
  have e2 : m1.upsilonTheta * (lam + c) + q.qtheta = (m1.upsilonTheta * lam + q.qtheta) + j * (2 * π) := by
    rw [← h2]; ring
  rw [D.hT]
  simp only [assembleTrajectory, e1, e2, p1.int_mul k _, p2.int_mul k _, p3.int_mul j _, p4.int_mul j _]
  constructor <;> ring

/-- **C73 (resonances).** For an eccentric, inclined orbit: the motion in `(r, θ)` is periodic exactly when the radial and
polar frequencies are in the ratio of two positive integers; the spatial orbit closes (also `φ` returns, up to whole turns)
exactly when all three are in integer ratios. -/
theorem C73_closed (he0 : 0 < e) (hx1 : x ^ 2 < 1) : ∃ T m Ωr Ωθ Ωφ, stableTrajectoryNat rs a p e x q = .ok T
    ∧ minoFrequencies rs a p e x = .ok m ∧ fundamentalFrequencies rs a p e x = .ok (Ωr, Ωθ, Ωφ)
    ∧ ((∃ c, 0 < c ∧ ∀ lam, T.r (lam + c) = T.r lam ∧ T.theta (lam + c) = T.theta lam)
        ↔ ∃ n k : ℕ, 0 < n ∧ 0 < k ∧ n * Ωr = k * Ωθ)
    ∧ ((∃ c, 0 < c ∧ ∀ lam, T.r (lam + c) = T.r lam ∧ T.theta (lam + c) = T.theta lam
          ∧ ∃ w : ℤ, T.phi (lam + c) = T.phi lam + w * (2 * π))
        ↔ ∃ (n k : ℕ) (w : ℤ), 0 < n ∧ 0 < k ∧ n * Ωr = k * Ωθ ∧ w * Ωr = k * Ωφ)
    ∧ (∀ c, 0 < c → (∀ lam, T.r (lam + c) = T.r lam ∧ T.theta (lam + c) = T.theta lam)
        → ∀ lam, T.t (lam + c) = T.t lam + m.gamma * c ∧ T.phi (lam + c) = T.phi lam + m.upsilonPhi * c) := by
  obtain ⟨T, m, hT, hm, hUr, hUt, hR, hTh, -, -⟩ := C52_least_period rs a p e x q h ha he1 hx0 hp hne
  obtain ⟨T2, m2, -, -, -, -, hm2, -, -, -, -, -, -, -, hG, -⟩ := C22_kerr rs a p e x q h ha he1 hx0 hp hne
  obtain rfl : m = m2 := Except.ok.inj (hm.symm.trans hm2)
  have hpi := Real.pi_pos
  have hper : ∀ c, 0 < c → (∀ lam, T.r (lam + c) = T.r lam ∧ T.theta (lam + c) = T.theta lam) →
      ∃ k n : ℕ, 0 < k ∧ 0 < n ∧ c * m.upsilonR = k * (2 * π) ∧ c * m.upsilonTheta = n * (2 * π) := by
    intro c hc hh
    obtain ⟨k, hk⟩ := (hR he0 c).mp fun l => (hh l).1
    obtain ⟨n, hn⟩ := (hTh hx1 c).mp fun l => (hh l).2
    have k0 : 0 < k := by
      have : (0:ℝ) < k := by rw [hk] at hc; exact (mul_pos_iff_of_pos_right (by positivity)).mp hc
      exact_mod_cast this
    have n0 : 0 < n := by
      have : (0:ℝ) < n := by rw [hn] at hc; exact (mul_pos_iff_of_pos_right (by positivity)).mp hc
      exact_mod_cast this
    have ck : ((k.toNat : ℕ) : ℝ) = k := by
      have : ((k.toNat : ℤ)) = k := Int.toNat_of_nonneg k0.le
      exact_mod_cast this
    have cn : ((n.toNat : ℕ) : ℝ) = n := by
      have : ((n.toNat : ℤ)) = n := Int.toNat_of_nonneg n0.le
      exact_mod_cast this
    refine ⟨k.toNat, n.toNat, by omega, by omega, ?_, ?_⟩
    · rw [ck, hk]; field_simp
    · rw [cn, hn]; field_simp
  have hadv : ∀ c, 0 < c → (∀ lam, T.r (lam + c) = T.r lam ∧ T.theta (lam + c) = T.theta lam)
        → ∀ lam, T.t (lam + c) = T.t lam + m.gamma * c ∧ T.phi (lam + c) = T.phi lam + m.upsilonPhi * c := by
    intro c hc hh lam
    obtain ⟨k, n, -, -, h1, h2⟩ := hper c hc hh
    exact common_period rs a p e x q h ha he1 hx0 hp hne hT hm k n (by rw [h1]; push_cast; ring) (by rw [h2]; push_cast; ring) lam
  -- the period belonging to a resonance
  have hback : ∀ n k : ℕ, 0 < n → 0 < k → n * m.upsilonR = k * m.upsilonTheta →
      0 < k * (2 * π / m.upsilonR) ∧ ∀ lam, T.r (lam + k * (2 * π / m.upsilonR)) = T.r lam
        ∧ T.theta (lam + k * (2 * π / m.upsilonR)) = T.theta lam := by
    intro n k hn hk hh
    have hk' : (0:ℝ) < k := by exact_mod_cast hk
    refine ⟨by positivity, fun lam => ⟨(hR he0 _).mpr ⟨k, by push_cast; ring⟩ lam, (hTh hx1 _).mpr ⟨n, ?_⟩ lam⟩⟩
    push_cast
    field_simp
    linarith
  refine ⟨T, m, _, _, _, hT, hm, (C25_fundamental rs a p e x m hm).1, ?_, ?_, hadv⟩
  · constructor
    · rintro ⟨c, hc, hh⟩
      obtain ⟨k, n, k0, n0, h1, h2⟩ := hper c hc hh
      refine ⟨n, k, n0, k0, ?_⟩
      rw [mul_div_assoc', mul_div_assoc']
      congr 1
      have : c * (n * m.upsilonR) = c * (k * m.upsilonTheta) := by linear_combination (n:ℝ) * h1 - (k:ℝ) * h2
      exact mul_left_cancel₀ hc.ne' this
    · rintro ⟨n, k, hn, hk, hh⟩
      rw [mul_div_assoc', mul_div_assoc', div_left_inj' hG.ne'] at hh
      exact ⟨_, hback n k hn hk hh⟩
  · constructor
    · rintro ⟨c, hc, hh⟩
      have hh' := fun lam => (⟨(hh lam).1, (hh lam).2.1⟩ : _ ∧ _)
      obtain ⟨k, n, k0, n0, h1, h2⟩ := hper c hc hh'
      obtain ⟨w, hw⟩ := (hh 0).2.2
      rw [(hadv c hc hh' 0).2] at hw
      refine ⟨n, k, w, n0, k0, ?_, ?_⟩
      · rw [mul_div_assoc', mul_div_assoc']
        congr 1
        have : c * (n * m.upsilonR) = c * (k * m.upsilonTheta) := by linear_combination (n:ℝ) * h1 - (k:ℝ) * h2
        exact mul_left_cancel₀ hc.ne' this
      · rw [mul_div_assoc', mul_div_assoc']
        congr 1
        have : c * (w * m.upsilonR) = c * (k * m.upsilonPhi) := by linear_combination (w:ℝ) * h1 - (k:ℝ) * hw
        exact mul_left_cancel₀ hc.ne' this
    · rintro ⟨n, k, w, hn, hk, hh, hw⟩
      rw [mul_div_assoc', mul_div_assoc', div_left_inj' hG.ne'] at hh hw
      obtain ⟨c0, hb⟩ := hback n k hn hk hh
      refine ⟨_, c0, fun lam => ⟨(hb lam).1, (hb lam).2, w, ?_⟩⟩
      rw [(hadv _ c0 hb lam).2]
      have : m.upsilonPhi * (k * (2 * π / m.upsilonR)) = w * (2 * π) := by
        rw [mul_div_assoc', mul_div_assoc', div_eq_iff hUr.ne']
        linear_combination (-2 * π) * hw
      rw [this]

/-- **C73 (no resonance).** If no two positive multiples of the radial and polar frequencies agree, the orbit comes
arbitrarily close to every point between its turning points, again and again: for every `(r, θ)` in the allowed rectangle
and however late, there is a later time at which the radius is exactly `r` and the polar angle is as close to `θ` as one
likes. -/
theorem C73_dense : ∃ T Ωr Ωθ Ωφ, stableTrajectoryNat rs a p e x q = .ok T
    ∧ fundamentalFrequencies rs a p e x = .ok (Ωr, Ωθ, Ωφ)
    ∧ ((∀ n k : ℕ, 0 < n → 0 < k → n * Ωr ≠ k * Ωθ) →
      ∀ r ∈ Icc (p / (1 + e)) (p / (1 - e)), ∀ θ ∈ Icc (arccos √(1 - x ^ 2)) (π - arccos √(1 - x ^ 2)),
        ∀ ε > 0, ∀ l0, ∃ lam > l0, T.r lam = r ∧ |T.theta lam - θ| < ε) := by
  obtain ⟨T, m, E, L, Q, r1, r2, r3, r4, hT, hm, hc, hr, hb, -⟩ := orbit_hyps q h ha he1 hx0 hp hne
  have A := C20_radial ha hT hm hc hr hb
  have B := C20_polar ha hT hm hc hr hb
  obtain ⟨m1, zm, zp, D⟩ := stableData_of ha hT hc hr
  obtain rfl := D.mino_eq hm
  obtain ⟨-, a2, a3, hUr, a5, -⟩ := A
  obtain ⟨-, b2, b3, hUt, b5⟩ := B
  have cr : Continuous T.r := continuous_iff_continuousAt.mpr fun l => (D.radial hb l).2.1.continuousAt
  have ct : Continuous T.theta := continuous_iff_continuousAt.mpr fun l => (D.polarEq hb l).2.2.1.continuousAt
  obtain ⟨T2, m2, -, -, -, -, hm2, -, -, -, -, -, -, -, hG, -⟩ := C22_kerr rs a p e x q h ha he1 hx0 hp hne
  obtain rfl : m1 = m2 := Except.ok.inj (hm.symm.trans hm2)
  have hpi := Real.pi_pos
  refine ⟨T, _, _, _, hT, (C25_fundamental rs a p e x m1 hm).1, fun hres r hrm θ hθ ε hε l0 => ?_⟩
  have hirr : Irrational ((2 * π / m1.upsilonR) / (2 * π / m1.upsilonTheta)) := by
    rw [show (2 * π / m1.upsilonR) / (2 * π / m1.upsilonTheta) = m1.upsilonTheta / m1.upsilonR by field_simp]
    refine Resonance.irr hUt hUr fun n k hn hk hh => hres k n hk hn ?_
    rw [mul_div_assoc', mul_div_assoc', hh]
  -- times at which `r` and `θ` are reached
  obtain ⟨l1, hl1⟩ : ∃ l1, T.r l1 = r := by
    have e1 : T.r (-q.qr / m1.upsilonR) = p / (1 + e) := a2 _ 0 (by push_cast; field_simp; ring)
    have e2 : T.r ((π - q.qr) / m1.upsilonR) = p / (1 - e) := a3 _ 0 (by push_cast; field_simp; ring)
    rw [← e1, ← e2] at hrm
    exact mem_range_of_exists_le_of_exists_ge cr ⟨_, hrm.1⟩ ⟨_, hrm.2⟩
  obtain ⟨l2, hl2⟩ : ∃ l2, T.theta l2 = θ := by
    have e1 := b2 (-q.qtheta / m1.upsilonTheta) 0 (by push_cast; field_simp; ring)
    have e2 := b3 ((π - q.qtheta) / m1.upsilonTheta) 0 (by push_cast; field_simp; ring)
    rw [← e2, ← e1] at hθ
    exact mem_range_of_exists_le_of_exists_ge ct ⟨_, hθ.1⟩ ⟨_, hθ.2⟩
  obtain ⟨δ, hδ, hcont⟩ := Metric.continuous_iff.mp ct l2 ε hε
  obtain ⟨n, k, h1, h2⟩ := Resonance.hit (P := 2 * π / m1.upsilonR) (S := 2 * π / m1.upsilonTheta) (by positivity)
    (by positivity) hirr hδ l1 l2 l0
  refine ⟨l1 + n * (2 * π / m1.upsilonR), h1, ?_, ?_⟩
  · rw [Function.Periodic.int_mul (f := T.r) a5 n l1, hl1]
  · have := hcont (l1 + n * (2 * π / m1.upsilonR) + k * (2 * π / m1.upsilonTheta)) (by rw [Real.dist_eq]; exact h2)
    rw [Real.dist_eq, Function.Periodic.int_mul (f := T.theta) b5 k, hl2] at this
    exact this

end

/-- **C73 (every ratio occurs).** For retrograde orbits, and for all orbits of a non-rotating hole: at given eccentricity
and inclination, the ratio `Ω_θ/Ω_r` is larger than one, and takes every value larger than one at some `p` above the
separatrix.  So there are resonant orbits of every order `n : k` with `n > k`, and non-resonant ones. -/
theorem C73_ratios (rs : RootScalar) (a e x : ℝ) (ha : 0 ≤ a) (ha1 : a < 1) (he : 0 ≤ e) (he1 : e < 1) (hx0 : x ≠ 0)
    (hx : |x| ≤ 1) (hax : a = 0 ∨ x < 0) (ρ : ℝ) :
    (∃ p Ωr Ωθ Ωφ, Spec.BoundOrbit rs a p e x ∧ fundamentalFrequencies rs a p e x = .ok (Ωr, Ωθ, Ωφ) ∧ Ωθ = ρ * Ωr) ↔ 1 < ρ := by
  obtain ⟨s, w, hs, hw, hw0, hinf, -⟩ := C61_whirl rs a e x ha ha1 he he1 hx0 hx
  have hB : ∀ p, s < p → Spec.BoundOrbit rs a p e x := fun p hp => by
    refine ⟨by rwa [abs_of_nonneg ha], ⟨he, he1.le⟩, hx, s, ?_, hp⟩
    unfold Spec.signedX
    rwa [if_neg (by linarith), abs_of_nonneg ha]
  have hB' : ∀ p, Spec.BoundOrbit rs a p e x → s < p := fun p hb => by
    obtain ⟨-, -, -, s', hs', hsp⟩ := hb
    unfold Spec.signedX at hs'
    rw [if_neg (by linarith), abs_of_nonneg ha] at hs'
    obtain rfl : s = s' := Except.ok.inj (hs.symm.trans hs')
    exact hsp
  have h4 : ∀ p, s < p → 0 < x → ¬ p ≤ 4 := fun p hp hx' h => by
    have ha0 : a = 0 := hax.resolve_right (by linarith)
    obtain ⟨s', hs', hval⟩ := C15_separatrix_returns rs a e x ha ha1 he he1.le (abs_le.mp hx).1 (abs_le.mp hx).2
    obtain rfl : s = s' := Except.ok.inj (hs.symm.trans hs')
    have := hval.zero ha0
    linarith
  have hdiv : ∀ p, s < p → 0 < x → p ≤ 4 → Spec.DivisorsNonzero a p e x := fun p hp hx' h => absurd h (h4 p hp hx')
  have hne : ∀ p, s < p → (x < 0 ∨ ∀ E L Q, constantsOfMotion rs a p e x = .ok (E, L, Q) →
      E * ((1 + √(1 - a ^ 2)) ^ 2 + a ^ 2) ≠ a * L) := fun p hp => by
    rcases hax with h0 | h0
    · refine .inr fun E L Q hc => ?_
      obtain ⟨E', L', Q', hc', hst⟩ := constants_stable (hB p hp) ha he1 (hdiv p hp)
      have := Except.ok.inj (hc.symm.trans hc')
      simp only [Prod.mk.injEq] at this
      rw [this.1, h0, zero_mul]
      have hE := hst.2.1
      have : 0 ≤ √(1 - (0:ℝ) ^ 2) := Real.sqrt_nonneg _
      positivity
    · exact .inl h0
  have hord : ∀ p, s < p → 0 < (w p).1 ∧ (w p).1 < (w p).2.1 := fun p hp => by
    obtain ⟨m, wr, wth, wph, -, h2, -, -, h5, h6, -⟩ := C60_order rs a p e x (hB p hp) ha he1.ne hx0 (hdiv p hp) (hne p hp)
    have := Except.ok.inj ((hw p hp).symm.trans h2)
    rw [this]
    exact ⟨h5, h6⟩
  constructor
  · rintro ⟨p, wr, wth, wph, hb, hf, hh⟩
    have hp := hB' p hb
    obtain ⟨o1, o2⟩ := hord p hp
    have := Except.ok.inj ((hw p hp).symm.trans hf)
    rw [this] at o1 o2
    simp only at o1 o2
    by_contra hcon
    nlinarith
  · intro hρ
    -- continuity
    obtain ⟨F, hF, hFv⟩ := C58_fundamental_frequencies_continuous rs
    have hdom : ∀ p ∈ Ioi s, ((a, p, e, x) : ℝ × ℝ × ℝ × ℝ) ∈ Spec.TrajectoryDomain rs := fun p hp =>
      ⟨hB p hp, ha, he1.ne, hx0, hdiv p hp, hne p hp⟩
    have hFw : ∀ p ∈ Ioi s, F (a, p, e, x) = w p := fun p hp =>
      Except.ok.inj ((hFv _ (hdom p hp)).symm.trans (hw p hp))
    have hc : ContinuousOn w (Ioi s) := by
      refine ContinuousOn.congr (f := fun p => F (a, p, e, x)) ?_ fun p hp => (hFw p hp).symm
      exact hF.comp (by fun_prop) hdom
    have hcont : ContinuousOn (fun p => (w p).2.1 / (w p).1) (Ioi s) :=
      ContinuousOn.div (continuous_fst.comp continuous_snd |>.comp_continuousOn hc) (continuous_fst.comp_continuousOn hc)
        fun p hp => (hord p hp).1.ne'
    -- the two ends
    obtain ⟨p1, hp1, hp1s⟩ : ∃ p1, ρ ≤ (w p1).2.1 / (w p1).1 ∧ s < p1 :=
      ((hinf.eventually_ge_atTop ρ).and self_mem_nhdsWithin).exists
    obtain ⟨p2, hp2, hp2s⟩ : ∃ p2, (w p2).2.1 / (w p2).1 ≤ ρ ∧ s < p2 := by
      obtain ⟨m, hm, -, h2, -⟩ := C63_precession rs a e x (by rwa [abs_of_nonneg ha]) he he1 hx0 hx
      have hlim : Tendsto (fun p => (m p).upsilonTheta / (m p).upsilonR) atTop (𝓝 1) := by
        have h3 := (h2.mul tendsto_inv_atTop_zero).mul_const (1 / (2 * π))
        have h4 := h3.add_const 1
        simp only [mul_zero, zero_mul, zero_add] at h4
        refine h4.congr' ?_
        filter_upwards [eventually_gt_atTop 0] with p hp
        have := Real.pi_ne_zero
        field_simp
        ring
      have hev : ∀ᶠ p in atTop, (m p).upsilonTheta / (m p).upsilonR < ρ := hlim.eventually_lt_const hρ
      obtain ⟨p2, h1, h2, h3⟩ := (hev.and (hm.and (eventually_gt_atTop s))).exists
      refine ⟨p2, ?_, h3⟩
      have hff := (C25_fundamental rs a p2 e x (m p2) h2).1
      have hww := Except.ok.inj ((hw p2 h3).symm.trans hff)
      have o1 := (hord p2 h3).1
      rw [hww] at o1 ⊢
      simp only at o1 ⊢
      have hg : (m p2).gamma ≠ 0 := fun h => by rw [h, div_zero] at o1; exact lt_irrefl _ o1
      rw [div_div_div_cancel_right₀ hg]
      exact h1.le
    obtain ⟨p, hp, hpe⟩ := isPreconnected_Ioi.intermediate_value hp2s hp1s hcont ⟨hp2, hp1⟩
    refine ⟨p, (w p).1, (w p).2.1, (w p).2.2, hB p hp, hw p hp, ?_⟩
    simp only at hpe
    rw [← hpe, div_mul_cancel₀ _ (hord p hp).1.ne']

/-- Non-vacuity: an eccentric inclined orbit that meets the hypotheses. -/
example (rs : RootScalar) : Spec.BoundOrbit rs (9 / 10) 13 (1 / 2) (-1 / 2) ∧ (0:ℝ) < 1 / 2 ∧ ((-1 / 2 : ℝ)) ^ 2 < 1
    ∧ (-1 / 2 : ℝ) < 0 :=
  ⟨C11_accepts_wide rs _ _ _ _ (by norm_num [abs_lt]) (by norm_num) (by norm_num) (by norm_num [abs_le]) (by norm_num),
    by norm_num, by norm_num, by norm_num⟩

/-- Non-vacuity: for retrograde inclined orbits there is one that is not resonant, so the hypothesis of `C73_dense` is met,
and there is one in 3:2 resonance, so the right-hand side of `C73_closed` is. -/
example (rs : RootScalar) :
    (∃ p Ωr Ωθ Ωφ, Spec.BoundOrbit rs (9 / 10) p (1 / 2) (-1 / 2)
      ∧ fundamentalFrequencies rs (9 / 10) p (1 / 2) (-1 / 2) = .ok (Ωr, Ωθ, Ωφ)
      ∧ ∀ n k : ℕ, 0 < n → 0 < k → n * Ωr ≠ k * Ωθ)
    ∧ ∃ p Ωr Ωθ Ωφ, Spec.BoundOrbit rs (9 / 10) p (1 / 2) (-1 / 2)
      ∧ fundamentalFrequencies rs (9 / 10) p (1 / 2) (-1 / 2) = .ok (Ωr, Ωθ, Ωφ)
      ∧ ((3 : ℕ) : ℝ) * Ωr = (2 : ℕ) * Ωθ := by
  have key := fun ρ => C73_ratios rs (9 / 10) (1 / 2) (-1 / 2) (by norm_num) (by norm_num) (by norm_num) (by norm_num)
    (by norm_num) (by norm_num [abs_le]) (.inr (by norm_num)) ρ
  constructor
  · obtain ⟨p, u, v, w, hb, hf, hh⟩ := (key √2).mpr (by rw [Real.lt_sqrt] <;> norm_num)
    refine ⟨p, u, v, w, hb, hf, fun n k hn hk hE => ?_⟩
    have hu : u ≠ 0 := by
      obtain ⟨m, wr, wth, wph, -, h2, -, -, h5, -⟩ := C60_order rs (9 / 10) p (1 / 2) (-1 / 2) hb (by norm_num) (by norm_num)
        (by norm_num) (fun h => absurd h (by norm_num)) (.inl (by norm_num))
      have := Except.ok.inj (hf.symm.trans h2)
      simp only [Prod.mk.injEq] at this
      rw [this.1]; exact h5.ne'
    rw [hh] at hE
    have h1 : (n : ℝ) = k * √2 := mul_right_cancel₀ hu (by rw [hE]; ring)
    have hk0 : (k : ℝ) ≠ 0 := by exact_mod_cast hk.ne'
    exact irrational_sqrt_two ⟨(n : ℚ) / k, by push_cast; rw [h1]; field_simp⟩
  · obtain ⟨p, u, v, w, hb, hf, hh⟩ := (key (3 / 2)).mpr (by norm_num)
    exact ⟨p, u, v, w, hb, hf, by rw [hh]; push_cast; ring⟩

end KGP
