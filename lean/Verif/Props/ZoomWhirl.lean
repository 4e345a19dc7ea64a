import Verif.Lemmas.ZoomWhirl
import Verif.Props.Precession

/-!
# C61: the separatrix is where the radial motion stops (zoom-whirl orbits)
-/

namespace KGP

open Classical Real Filter Topology

/-- **C04.** The restriction `DivisorsNonzero` of C04, C22 and later theorems excludes, for given spin, eccentricity and
inclination, at most finitely many values of the semi-latus rectum (and none above 4). -/
theorem C04_divisors_finite (a e x : ℝ) (ha : |a| ≤ 1) (he : 0 ≤ e) (he1 : e < 1) (hx0 : x ≠ 0) (hx : |x| ≤ 1) :
    {p | ¬ Spec.DivisorsNonzero a p e x}.Finite ∧ ∀ p, 4 < p → Spec.DivisorsNonzero a p e x := by
  have ha2 : |a| ^ 2 ≤ 1 := by rw [sq_abs]; exact (sq_le_one_iff_abs_le_one a).mpr ha
  have hx' : Spec.signedX a x ^ 2 ≤ 1 := (sq_le_one_iff_abs_le_one _).mpr (by rwa [abs_signedX])
  have hx0' : Spec.signedX a x ≠ 0 := (signedX_eq_zero a x).not.mpr hx0
  simp only [divisors_iff]
  exact ⟨irregular_finite ha2 he he1 hx0' hx', fun p hp => regular_of_four_lt ha2 hp he he1 hx0' hx'⟩

/-- The constants, roots and frequencies of an accepted orbit. -/
structure Accepted (rs : RootScalar) (a p e x : ℝ) (m : MinoFreqs) (E L Q r3 r4 : ℝ) : Prop where
  mino : minoFrequencies rs a p e x = .ok m
  consts : constantsOfMotion rs a p e x = .ok (E, L, Q)
  energy0 : 0 < E
  energy1 : E < 1
  sign : 0 < Real.sign x * L
  carter : 0 ≤ Q
  incl : Spec.Zpol a E L Q (1 - x ^ 2) = 0
  roots : Spec.RadialRoots a E L Q (p / (1 - e)) (p / (1 + e)) r3 r4
  r32 : r3 < p / (1 + e)
  r21 : p / (1 + e) ≤ p / (1 - e)
  r3h : 1 + √(1 - a ^ 2) ≤ r3
  r40 : 0 ≤ r4
  r4h : r4 ≤ 1 - √(1 - a ^ 2)
  future : a * L < E * ((p / (1 + e)) ^ 2 + a ^ 2)
  upsilonR : m.upsilonR = rFrequencyCore E (p / (1 - e), p / (1 + e), r3, r4)
  upsilonTheta : ∃ zp, PolarConfig a E L Q (1 - x ^ 2) zp
    ∧ m.upsilonTheta = π * polarW a E L (1 - x ^ 2) / (2 * ellipk (mT a (1 - x ^ 2) zp))

lemma accepted_of {rs : RootScalar} {a p e x : ℝ} (h : Spec.BoundOrbit rs a p e x)
    (ha : 0 ≤ a) (he1 : e ≠ 1) (hx0 : x ≠ 0) (hp : 0 < x → p ≤ 4 → Spec.DivisorsNonzero a p e x) :
    ∃ m E L Q r3 r4, Accepted rs a p e x m E L Q r3 r4 := by
  obtain ⟨hal, ⟨he, he1'⟩, hx1, -⟩ := id h
  have hlt : e < 1 := lt_of_le_of_ne he1' he1
  rw [abs_of_nonneg ha] at hal
  obtain ⟨m, hm⟩ := (C12_frequency_contract rs a p e x none none none).2.2.2.2.1.1.mpr ⟨h, hx0, he1⟩
  have main : ∀ {E L Q r1 r2 r3 r4 : ℝ}, constantsOfMotion rs a p e x = .ok (E, L, Q) →
      stableRadialRoots rs a p e x = .ok (r1, r2, r3, r4) → 0 < E → E < 1 → 0 < Real.sign x * L → 0 ≤ Q →
      Spec.RadialRoots a E L Q r1 r2 r3 r4 → r3 < r2 → r2 ≤ r1 → 1 + √(1 - a ^ 2) ≤ r3 → 0 ≤ r4 →
      r4 ≤ 1 - √(1 - a ^ 2) → a * L < E * ((p / (1 + e)) ^ 2 + a ^ 2) → Accepted rs a p e x m E L Q r3 r4 := by
    intro E L Q r1 r2 r3 r4 hc hr hE hE1 hL hQ hR h32 h21 h3 h4 h4' hf
    obtain ⟨m', zm, zp, D⟩ := stableData_of (q := ⟨0, 0, 0, 0⟩) ha (stableTrajectoryNat_of hm hc _) hc hr
    obtain rfl := D.mino_eq hm
    obtain ⟨e1, e2⟩ := D.roots12
    have hL0 : L ≠ 0 := by rintro rfl; simp at hL
    have hP := D.polar (by nlinarith) hL0
    have hU := D.upsilonTheta (by nlinarith) hL0
    have hUr := D.upsilonR
    rw [D.zm_eq] at hP hU
    subst e1 e2
    exact ⟨hm, hc, hE, hE1, hL, hQ, hP.root, hR, h32, h21, h3, h4, h4', hf, hUr, zp, hP, hU⟩
  rcases eq_or_lt_of_le ha with h0 | h0
  · subst h0
    obtain ⟨T, m', E, L, Q, r1, r2, r3, r4, -, -, hc, hr, hb, hE, hE1, hL, hQ, hf, -, e2⟩ :=
      orbit_hyps ⟨0, 0, 0, 0⟩ h ha he1 hx0 hp (Or.inr fun E L Q hc => by
        obtain ⟨E', L', Q', hc', hE, -⟩ := C07_turning rs p e x h he1
        have hcc := Except.ok.inj (hc.symm.trans hc')
        simp only [Prod.mk.injEq] at hcc
        rw [hcc.1]
        have : 0 < E' * ((1 + √(1 - 0 ^ 2)) ^ 2 + 0 ^ 2) := by positivity
        rw [zero_mul]; exact this.ne')
    obtain ⟨v1, v2, -, v4⟩ := RadialRoots.vieta hb.roots
    have hs : √(1 - (0:ℝ) ^ 2) = 1 := by norm_num
    have h3 := hb.horizon
    rw [hs] at h3
    have h4 : r4 = 0 := by
      have h1 : 0 < (1 - E ^ 2) * (r1 * r2 * r3) := by
        have k1 : 0 < r3 := by linarith
        have k2 : 0 < r2 := by linarith [hb.r32]
        have k3 : 0 < r1 := by linarith [hb.r21]
        have k4 : 0 < 1 - E ^ 2 := by nlinarith
        positivity
      have h2 : (1 - E ^ 2) * (r1 * r2 * r3) * r4 = 0 := by linear_combination v4
      exact (mul_eq_zero.mp h2).resolve_left h1.ne'
    exact ⟨m, E, L, Q, r3, r4, main hc hr hE hE1 hL hQ hb.roots hb.r32 hb.r21 hb.horizon.le h4.ge
      (by rw [h4, hs]; norm_num) (by rw [← e2]; exact hf)⟩
  · obtain ⟨E, L, Q, r1, r2, r3, r4, hc, hr, hE, hE1, hL, hQ, -, -, hR, h32, h21, h4, h3, h4', hf, -⟩ :=
      C04_boundGeodesic rs a p e x h h0 he1 hx0 hp
    exact ⟨m, E, L, Q, r3, r4, main hc hr hE hE1 hL hQ hR h32 h21 h3 h4 h4' hf⟩

lemma Accepted.consts_eq {rs : RootScalar} {a p e x : ℝ} {m : MinoFreqs} {E L Q r3 r4 E' L' Q' : ℝ}
    (A : Accepted rs a p e x m E L Q r3 r4) (hc : constantsOfMotion rs a p e x = .ok (E', L', Q')) :
    E' = E ∧ L' = L := by
  have := Except.ok.inj (hc.symm.trans A.consts)
  simp only [Prod.mk.injEq] at this
  exact ⟨this.1, this.2.1⟩

lemma Accepted.config {rs : RootScalar} {a p e x : ℝ} {m : MinoFreqs} {E L Q r3 r4 : ℝ}
    (A : Accepted rs a p e x m E L Q r3 r4) : RootsConfig (p / (1 - e)) (p / (1 + e)) r3 r4 :=
  ⟨A.r21, by linarith [A.r3h, A.r4h, Real.sqrt_nonneg (1 - a ^ 2)], Or.inl A.r32⟩

lemma Accepted.beta {rs : RootScalar} {a p e x : ℝ} {m : MinoFreqs} {E L Q r3 r4 : ℝ}
    (A : Accepted rs a p e x m E L Q r3 r4) : 0 < 1 - E ^ 2 ∧ 1 - E ^ 2 ≤ 1 :=
  ⟨by nlinarith [A.energy0, A.energy1], by nlinarith [A.energy0]⟩

/-- The polar frequency is bounded below. -/
lemma Accepted.theta_ge {rs : RootScalar} {a p e x : ℝ} {m : MinoFreqs} {E L Q r3 r4 : ℝ}
    (A : Accepted rs a p e x m E L Q r3 r4) (ha : a ^ 2 ≤ 1) (hx1 : x ^ 2 ≤ 1) : √2 * |x| ≤ m.upsilonTheta := by
  obtain ⟨zp, H, hU⟩ := A.upsilonTheta
  obtain ⟨-, h2, h3⟩ := H.upsilon_ge hU
  obtain ⟨hb0, hb1⟩ := A.beta
  have hs := Real.sqrt_nonneg (1 - a ^ 2)
  have hS := two_le_S A.roots hb0 (by linarith [A.r3h, A.r32, A.r21]) (by linarith [A.r3h, A.r32])
    (by linarith [A.r3h]) A.r40
  have hB : a ^ 2 * (1 - E ^ 2) ≤ 1 := by nlinarith [sq_nonneg a]
  have hB2 : a ^ 2 * (1 - E ^ 2) * (1 - x ^ 2) ≤ 1 * (1 - x ^ 2) :=
    mul_le_mul_of_nonneg_right hB (by linarith)
  refine abs_le_of_sq_le_sq' ?_ h3.le |>.2
  rw [mul_pow, Real.sq_sqrt zero_le_two, sq_abs]
  linarith

/-- Bounds for the radial frequency in terms of `r2 - r3`. -/
lemma Accepted.radial_le {rs : RootScalar} {a p e x : ℝ} {m : MinoFreqs} {E L Q r3 r4 : ℝ}
    (A : Accepted rs a p e x m E L Q r3 r4) : 0 < m.upsilonR
      ∧ m.upsilonR ≤ √((p / (1 - e) - r3) * (p / (1 + e)))
      ∧ m.upsilonR ≤ π * (p / (1 - e)) / (2 * ellipk (mR (p / (1 - e)) (p / (1 + e)) r3 r4)) := by
  have H := A.config
  obtain ⟨hb0, hb1⟩ := A.beta
  have hs := Real.sqrt_nonneg (1 - a ^ 2)
  have h4 := A.r40
  have h3 := A.r3h
  have h32 := A.r32
  have h21 := A.r21
  have hm0 : 0 ≤ mR (p / (1 - e)) (p / (1 + e)) r3 r4 := by
    unfold mR
    exact div_nonneg (mul_nonneg (by linarith) (by linarith [H.h43])) (mul_nonneg (by linarith) (by linarith [H.h43]))
  have hK := ellipk_pos H.mR_lt
  have hK2 := ellipk_ge hm0 H.mR_lt
  have hpi := Real.pi_pos
  rw [A.upsilonR, rFrequencyCore_eq H]
  generalize p / (1 - e) = r1 at *
  generalize p / (1 + e) = r2 at *
  generalize ellipk (mR r1 r2 r3 r4) = k at *
  have h43 := H.h43
  have p1 : 0 < (r1 - r3) * (r2 - r4) := mul_pos (by linarith) (by linarith)
  have p2 : (1 - E ^ 2) * (r1 - r3) * (r2 - r4) ≤ (r1 - r3) * (r2 - r4) := by
    rw [mul_assoc]; nlinarith
  have p3 : (r1 - r3) * (r2 - r4) ≤ (r1 - r3) * r2 := mul_le_mul_of_nonneg_left (by linarith) (by linarith)
  have p4 : (r1 - r3) * r2 ≤ r1 ^ 2 := by nlinarith
  refine ⟨?_, ?_, ?_⟩
  · have : 0 < √((1 - E ^ 2) * (r1 - r3) * (r2 - r4)) := Real.sqrt_pos.mpr (by rw [mul_assoc]; positivity)
    positivity
  · have q1 : √((1 - E ^ 2) * (r1 - r3) * (r2 - r4)) ≤ √((r1 - r3) * r2) := Real.sqrt_le_sqrt (by linarith)
    rw [div_le_iff₀ (by positivity)]
    have q2 := Real.sqrt_nonneg ((r1 - r3) * r2)
    nlinarith
  · have q1 : √((1 - E ^ 2) * (r1 - r3) * (r2 - r4)) ≤ r1 :=
      Real.sqrt_le_iff.mpr ⟨by linarith, by linarith⟩
    gcongr

/-- The closed relations between `(p, E, L, Q, r3, r4)`. -/
def closedRel (a e x : ℝ) : Set (ℝ × ℝ × ℝ × ℝ × ℝ × ℝ) :=
  {v | 0 ≤ v.2.1 ∧ 0 ≤ Real.sign x * v.2.2.1 ∧ 0 ≤ v.2.2.2.1 ∧ Spec.Zpol a v.2.1 v.2.2.1 v.2.2.2.1 (1 - x ^ 2) = 0
    ∧ (∀ r, Spec.R a v.2.1 v.2.2.1 v.2.2.2.1 r = (1 - v.2.1 ^ 2) * (v.1 / (1 - e) - r) * (r - v.1 / (1 + e))
        * (r - v.2.2.2.2.1) * (r - v.2.2.2.2.2))
    ∧ 1 + √(1 - a ^ 2) ≤ v.2.2.2.2.1 ∧ 0 ≤ v.2.2.2.2.2 ∧ v.2.2.2.2.2 ≤ 1 - √(1 - a ^ 2)
    ∧ v.2.2.2.2.1 ≤ v.1 / (1 + e) ∧ a * v.2.2.1 ≤ v.2.1 * ((v.1 / (1 + e)) ^ 2 + a ^ 2)}

lemma isClosed_closedRel (a e x : ℝ) : IsClosed (closedRel a e x) := by
  unfold closedRel Spec.Zpol Spec.R Spec.Delta
  simp only [Set.setOf_and, Set.setOf_forall]
  repeat' first
    | apply IsClosed.inter
    | exact isClosed_le (by fun_prop) (by fun_prop)
    | exact isClosed_eq (by fun_prop) (by fun_prop)
    | exact isClosed_iInter fun r => isClosed_eq (by fun_prop) (by fun_prop)

lemma Accepted.mem {rs : RootScalar} {a p e x : ℝ} {m : MinoFreqs} {E L Q r3 r4 : ℝ}
    (A : Accepted rs a p e x m E L Q r3 r4) : (p, E, L, Q, r3, r4) ∈ closedRel a e x :=
  ⟨A.energy0.le, A.sign.le, A.carter, A.incl, A.roots, A.r3h, A.r40, A.r4h, A.r32.le, A.future.le⟩

/-- The constants and inner roots of the orbits with `p` near `s` lie in a compact set. -/
lemma Accepted.bounded {rs : RootScalar} {a p e x : ℝ} {m : MinoFreqs} {E L Q r3 r4 : ℝ}
    (A : Accepted rs a p e x m E L Q r3 r4) {ρ : ℝ} (hρ : p / (1 - e) ≤ ρ) :
    (E, L, Q, r3, r4) ∈ Set.Icc (0:ℝ) 1 ×ˢ Set.Icc (-(3 * ρ)) (3 * ρ) ×ˢ Set.Icc 0 (6 * ρ ^ 2) ×ˢ Set.Icc 0 ρ
      ×ˢ Set.Icc (0:ℝ) 1 := by
  obtain ⟨v1, v2, -, v4⟩ := RadialRoots.vieta A.roots
  obtain ⟨hb0, hb1⟩ := A.beta
  have hs := Real.sqrt_nonneg (1 - a ^ 2)
  have h4 := A.r40
  have h4' := A.r4h
  have h3 := A.r3h
  have h32 := A.r32
  have h21 := A.r21
  generalize p / (1 - e) = r1 at *
  generalize p / (1 + e) = r2 at *
  have l : L ^ 2 + Q ≤ 6 * ρ ^ 2 := by
    have k : ∀ {x y : ℝ}, 0 ≤ x → x ≤ ρ → 0 ≤ y → y ≤ ρ → x * y ≤ ρ ^ 2 := fun h1 h2 h3 h4 => by nlinarith
    have k1 : r1 * r2 + r1 * r3 + r1 * r4 + r2 * r3 + r2 * r4 + r3 * r4 ≤ 6 * ρ ^ 2 := by
      have q1 := k (x := r1) (y := r2) (by linarith) (by linarith) (by linarith) (by linarith)
      have q2 := k (x := r1) (y := r3) (by linarith) (by linarith) (by linarith) (by linarith)
      have q3 := k (x := r1) (y := r4) (by linarith) (by linarith) (by linarith) (by linarith)
      have q4 := k (x := r2) (y := r3) (by linarith) (by linarith) (by linarith) (by linarith)
      have q5 := k (x := r2) (y := r4) (by linarith) (by linarith) (by linarith) (by linarith)
      have q6 := k (x := r3) (y := r4) (by linarith) (by linarith) (by linarith) (by linarith)
      linarith
    have k2 : (1 - E ^ 2) * (r1 * r2 + r1 * r3 + r1 * r4 + r2 * r3 + r2 * r4 + r3 * r4) ≤ 1 * (6 * ρ ^ 2) :=
      mul_le_mul hb1 k1 (by
        have k0 : ∀ {x y : ℝ}, 0 ≤ x → 0 ≤ y → 0 ≤ x * y := fun h1 h2 => mul_nonneg h1 h2
        have q1 := k0 (x := r1) (y := r2) (by linarith) (by linarith)
        have q2 := k0 (x := r1) (y := r3) (by linarith) (by linarith)
        have q3 := k0 (x := r1) (y := r4) (by linarith) (by linarith)
        have q4 := k0 (x := r2) (y := r3) (by linarith) (by linarith)
        have q5 := k0 (x := r2) (y := r4) (by linarith) (by linarith)
        have q6 := k0 (x := r3) (y := r4) (by linarith) (by linarith)
        linarith) zero_le_one
    have k3 : 0 ≤ a ^ 2 * (1 - E ^ 2) := by positivity
    linarith
  have hQ := A.carter
  have hρ0 : 0 ≤ ρ := by linarith
  have hL := abs_le_of_sq_le_sq' (show L ^ 2 ≤ (3 * ρ) ^ 2 by nlinarith [sq_nonneg ρ]) (by linarith)
  exact ⟨⟨A.energy0.le, A.energy1.le⟩, hL, ⟨hQ, by nlinarith [sq_nonneg L]⟩, ⟨by linarith, by linarith⟩,
    ⟨h4, by linarith⟩⟩

/-- Orbits just outside the separatrix. -/
lemma accepted_near (rs : RootScalar) {a e x s : ℝ} (ha : 0 ≤ a) (ha1 : a < 1) (he : 0 ≤ e) (he1 : e < 1) (hx0 : x ≠ 0)
    (hx : |x| ≤ 1) (hs : separatrix rs a e x = .ok s) :
    ∃ (m : ℝ → MinoFreqs) (E L Q r3 r4 : ℝ → ℝ), (∀ p, s < p → minoFrequencies rs a p e x = .ok (m p))
      ∧ (∀ p, s < p → (0 < x → p ≤ 4 → Spec.DivisorsNonzero a p e x) →
          Accepted rs a p e x (m p) (E p) (L p) (Q p) (r3 p) (r4 p))
      ∧ ∀ᶠ p in 𝓝[>] s, s < p ∧ p < s + 1 ∧ Spec.DivisorsNonzero a p e x := by
  have hB : ∀ p, s < p → Spec.BoundOrbit rs a p e x := fun p hp => by
    refine ⟨by rwa [abs_of_nonneg ha], ⟨he, he1.le⟩, hx, s, ?_, hp⟩
    unfold Spec.signedX
    rwa [if_neg (by linarith), abs_of_nonneg ha]
  have hex : ∀ p, ∃ (m : MinoFreqs) (E L Q r3 r4 : ℝ), (s < p → minoFrequencies rs a p e x = .ok m)
      ∧ (s < p → (0 < x → p ≤ 4 → Spec.DivisorsNonzero a p e x) → Accepted rs a p e x m E L Q r3 r4) := by
    intro p
    by_cases hp : s < p
    · by_cases hd : 0 < x → p ≤ 4 → Spec.DivisorsNonzero a p e x
      · obtain ⟨m, E, L, Q, r3, r4, h⟩ := accepted_of (hB p hp) ha he1.ne hx0 hd
        exact ⟨m, E, L, Q, r3, r4, fun _ => h.mino, fun _ _ => h⟩
      · obtain ⟨m, hm⟩ := (C12_frequency_contract rs a p e x none none none).2.2.2.2.1.1.mpr ⟨hB p hp, hx0, he1.ne⟩
        exact ⟨m, 0, 0, 0, 0, 0, fun _ => hm, fun _ h => absurd h hd⟩
    · exact ⟨⟨0, 0, 0, 0⟩, 0, 0, 0, 0, 0, fun h => absurd h hp, fun h => absurd h hp⟩
  choose m E L Q r3 r4 h1 h2 using hex
  refine ⟨m, E, L, Q, r3, r4, h1, h2, ?_⟩
  have hfin := (C04_divisors_finite a e x (by rw [abs_of_nonneg ha]; exact ha1.le) he he1 hx0 hx).1
  have h3 : ∀ᶠ p in 𝓝[>] s, p ∉ {p | ¬ Spec.DivisorsNonzero a p e x} \ {s} := by
    refine mem_nhdsWithin_of_mem_nhds ?_
    exact (hfin.subset Set.sdiff_subset).isClosed.isOpen_compl.mem_nhds (by simp)
  filter_upwards [h3, self_mem_nhdsWithin, mem_nhdsWithin_of_mem_nhds (Iio_mem_nhds (show s < s + 1 by linarith))]
    with p hp1 hp2 hp3
  refine ⟨hp2, hp3, ?_⟩
  by_contra hcon
  exact hp1 ⟨hcon, (ne_of_gt hp2)⟩

/-- Limits of the constants and roots at the separatrix. -/
lemma limit_rel (rs : RootScalar) {a e x s : ℝ} (ha : 0 ≤ a) (ha1 : a < 1) (he : 0 ≤ e) (he1 : e < 1)
    (hx0 : x ≠ 0) (hx : |x| ≤ 1) (hs : separatrix rs a e x = .ok s) {m : ℝ → MinoFreqs} {E L Q r3 r4 : ℝ → ℝ}
    (hA : ∀ᶠ p in 𝓝[>] s, p < s + 1 ∧ Accepted rs a p e x (m p) (E p) (L p) (Q p) (r3 p) (r4 p))
    {u : Ultrafilter ℝ} (hu : ↑u ≤ 𝓝[>] s) {y : ℝ × ℝ × ℝ × ℝ × ℝ}
    (hy : Tendsto (fun p => (E p, L p, Q p, r3 p, r4 p)) u (𝓝 y)) :
    (s, y) ∈ closedRel a e x ∧ y.2.2.2.1 = s / (1 + e) := by
  have hl := (abs_le.mp hx).1
  have hr := (abs_le.mp hx).2
  obtain ⟨s', hs', hv⟩ := C15_separatrix_returns rs a e x ha ha1 he he1.le hl hr
  obtain rfl : s = s' := Except.ok.inj (hs.symm.trans hs')
  have hstab : ¬ Spec.StableOrbit a s e x := by
    rw [← (C16_exact rs a s e x ha ha1 he he1 hl hr).2]
    exact (C16_threshold rs a e x).2.2.1 s hs
  have h1e : 0 < 1 + e := by linarith
  have hid : Tendsto (fun p : ℝ => p) u (𝓝 s) := hu.trans nhdsWithin_le_nhds
  have hF : Tendsto (fun p => (p, E p, L p, Q p, r3 p, r4 p)) u (𝓝 (s, y)) := hid.prodMk_nhds hy
  have hmem : (s, y) ∈ closedRel a e x := by
    refine (isClosed_closedRel a e x).mem_of_tendsto hF ?_
    have : ∀ᶠ p in (u : Filter ℝ), p < s + 1 ∧ Accepted rs a p e x (m p) (E p) (L p) (Q p) (r3 p) (r4 p) := hu hA
    filter_upwards [this] with p hp
    exact hp.2.mem
  refine ⟨hmem, ?_⟩
  obtain ⟨E', L', Q', r3', r4'⟩ := y
  obtain ⟨k1, k2, k3, k4, k5, k6, k7, k8, k9, k10⟩ := hmem
  simp only at k1 k2 k3 k4 k5 k6 k7 k8 k9 k10 ⊢
  have hs0 : 0 < s := by
    have := Real.sqrt_nonneg (1 - a ^ 2)
    have h : 0 < s / (1 + e) := by linarith
    have := mul_pos h h1e
    rwa [div_mul_cancel₀ _ h1e.ne'] at this
  rcases eq_or_lt_of_le k9 with h | h
  · exact h
  · refine absurd ?_ hstab
    refine limit_stable ha ha1 he he1 hx0 ((sq_le_one_iff_abs_le_one x).mpr hx) hs0 ?_ k1 k2 k3 k4 k5 k6 k7 k8 h
      (fun _ => k10)
    intro hneg
    have h4 : 4 < s := by
      rcases eq_or_lt_of_le ha with h0 | h0
      · have := hv.zero h0.symm; linarith
      · have hpl := polarLo_bounds.1
        rcases eq_or_lt_of_le hl with h | h
        · obtain ⟨-, h2, -⟩ := hv.retrograde h0.ne' h.symm
          linarith
        · obtain ⟨pp, -, h2, h3, -⟩ := hv.generic_retrograde h0.ne' h hneg
          unfold polarLo at hpl; linarith
    rw [lt_div_iff₀ h1e]; linarith

lemma bounded_near {rs : RootScalar} {a e x s : ℝ} (he1 : e < 1) {m : ℝ → MinoFreqs} {E L Q r3 r4 : ℝ → ℝ}
    (hA : ∀ᶠ p in 𝓝[>] s, p < s + 1 ∧ Accepted rs a p e x (m p) (E p) (L p) (Q p) (r3 p) (r4 p)) :
    ∃ K : Set (ℝ × ℝ × ℝ × ℝ × ℝ), IsCompact K ∧ ∀ᶠ p in 𝓝[>] s, (E p, L p, Q p, r3 p, r4 p) ∈ K := by
  refine ⟨Set.Icc (0:ℝ) 1 ×ˢ Set.Icc (-(3 * ((s + 1) / (1 - e)))) (3 * ((s + 1) / (1 - e)))
      ×ˢ Set.Icc 0 (6 * ((s + 1) / (1 - e)) ^ 2) ×ˢ Set.Icc 0 ((s + 1) / (1 - e)) ×ˢ Set.Icc (0:ℝ) 1,
    isCompact_Icc.prod (isCompact_Icc.prod (isCompact_Icc.prod (isCompact_Icc.prod isCompact_Icc))), ?_⟩
  have h2e : 0 < 1 - e := by linarith
  filter_upwards [hA] with p hp
  exact hp.2.bounded (by gcongr; linarith [hp.1])

/-- At the separatrix the third root of the radial potential reaches the periapsis, which is outside the horizon. -/
lemma third_root_tendsto (rs : RootScalar) {a e x s : ℝ} (ha : 0 ≤ a) (ha1 : a < 1) (he : 0 ≤ e) (he1 : e < 1)
    (hx0 : x ≠ 0) (hx : |x| ≤ 1) (hs : separatrix rs a e x = .ok s) {m : ℝ → MinoFreqs} {E L Q r3 r4 : ℝ → ℝ}
    (hA : ∀ᶠ p in 𝓝[>] s, p < s + 1 ∧ Accepted rs a p e x (m p) (E p) (L p) (Q p) (r3 p) (r4 p)) :
    Tendsto (fun p => p / (1 + e) - r3 p) (𝓝[>] s) (𝓝 0) ∧ 1 + √(1 - a ^ 2) < s / (1 + e) := by
  obtain ⟨K, hK, hKm⟩ := bounded_near he1 hA
  constructor
  · refine tendsto_of_limit_points (F := fun p => (E p, L p, Q p, r3 p, r4 p)) hK hKm ?_
    intro u hu y _ hy
    obtain ⟨-, heq⟩ := limit_rel rs ha ha1 he he1 hx0 hx hs hA hu hy
    have hid : Tendsto (fun p : ℝ => p) u (𝓝 s) := hu.trans nhdsWithin_le_nhds
    have h3 : Tendsto r3 u (𝓝 y.2.2.2.1) := by
      have : Continuous fun v : ℝ × ℝ × ℝ × ℝ × ℝ => v.2.2.2.1 := by fun_prop
      exact (this.tendsto _).comp hy
    have := (hid.div_const (1 + e)).sub h3
    rwa [heq, sub_self] at this
  · have hu := Ultrafilter.of_le (𝓝[>] s)
    have hKu : (fun p => (E p, L p, Q p, r3 p, r4 p)) ⁻¹' K ∈ (Ultrafilter.of (𝓝[>] s) : Filter ℝ) := hu hKm
    obtain ⟨y, -, hyu⟩ := hK.ultrafilter_le_nhds ((Ultrafilter.of (𝓝[>] s)).map _) (le_principal_iff.mpr hKu)
    obtain ⟨hmem, heq⟩ := limit_rel rs ha ha1 he he1 hx0 hx hs hA hu hyu
    obtain ⟨E', L', Q', r3', r4'⟩ := y
    obtain ⟨k1, k2, k3, k4, k5, k6, k7, k8, k9, k10⟩ := hmem
    simp only at k1 k2 k3 k4 k5 k6 k7 k8 k9 k10 heq
    subst heq
    rcases eq_or_lt_of_le k6 with h | h
    · exfalso
      have hA2 : a ^ 2 < 1 := by nlinarith
      have hsq : 0 < √(1 - a ^ 2) := Real.sqrt_pos.mpr (by linarith)
      have hsq2 : √(1 - a ^ 2) ^ 2 = 1 - a ^ 2 := Real.sq_sqrt (by linarith)
      rw [← h] at k5
      generalize hrp : 1 + √(1 - a ^ 2) = rp at *
      have hD0 : rp ^ 2 - 2 * rp + a ^ 2 = 0 := by rw [← hrp]; linear_combination hsq2
      -- derivative of the radial potential at the horizon
      have d1 : HasDerivAt (Spec.R a E' L' Q')
          (2 * (E' * (rp ^ 2 + a ^ 2) - a * L') * (E' * (2 * rp))
            - ((2 * rp - 2) * (rp ^ 2 + (L' - a * E') ^ 2 + Q') + (rp ^ 2 - 2 * rp + a ^ 2) * (2 * rp))) rp := by
        unfold Spec.R Spec.Delta
        have i1 : HasDerivAt (fun r : ℝ => r ^ 2) (2 * rp) rp := by simpa using hasDerivAt_pow 2 rp
        have i2 : HasDerivAt (fun r : ℝ => 2 * r) 2 rp := by simpa using (hasDerivAt_id rp).const_mul 2
        have i3 := (((i1.add_const (a ^ 2)).const_mul E').sub_const (a * L')).pow 2
        have i4 := ((i1.sub i2).add_const (a ^ 2)).mul ((i1.add_const ((L' - a * E') ^ 2)).add_const Q')
        refine (i3.sub i4).congr_deriv ?_
        simp only [Pi.sub_apply]
        push_cast
        ring
      have d2 : HasDerivAt (Spec.R a E' L' Q') 0 rp := by
        have e1 : Spec.R a E' L' Q' = fun r => (1 - E' ^ 2) * (s / (1 - e) - r) * (r - r4') * (r - rp) ^ 2 := by
          funext r; rw [k5 r]; ring
        rw [e1]
        have i1 : HasDerivAt (fun r : ℝ => (r - rp) ^ 2) 0 rp := by
          refine (((hasDerivAt_id rp).sub_const rp).fun_pow 2).congr_deriv ?_
          simp
        have i0 : DifferentiableAt ℝ (fun r : ℝ => (1 - E' ^ 2) * (s / (1 - e) - r) * (r - r4')) rp := by fun_prop
        refine (i0.hasDerivAt.mul i1).congr_deriv ?_
        simp
      have heq := d1.unique d2
      have hR0 : Spec.R a E' L' Q' rp = 0 := by rw [k5 rp]; ring
      unfold Spec.R Spec.Delta at hR0
      rw [hD0, zero_mul, sub_zero] at hR0
      have hP := pow_eq_zero_iff two_ne_zero |>.mp hR0
      rw [hP, hD0] at heq
      have hrp1 : 1 < rp := by linarith
      have : 0 < (2 * rp - 2) * (rp ^ 2 + (L' - a * E') ^ 2 + Q') := by
        have : 0 < 2 * rp - 2 := by linarith
        positivity
      linarith
    · exact h

/-- The separatrix orbit does not touch the horizon. -/
theorem C15_separatrix_outside (rs : RootScalar) (a e x : ℝ) (ha : 0 ≤ a) (ha1 : a < 1) (he : 0 ≤ e) (he1 : e < 1)
    (hx0 : x ≠ 0) (hx : |x| ≤ 1) :
    ∃ s, separatrix rs a e x = .ok s ∧ outerHorizon a < s / (1 + e) := by
  obtain ⟨s, hs, -⟩ := C15_separatrix_returns rs a e x ha ha1 he he1.le (abs_le.mp hx).1 (abs_le.mp hx).2
  obtain ⟨m, E, L, Q, r3, r4, hm, hA, hev⟩ := accepted_near rs ha ha1 he he1 hx0 hx hs
  have hA' : ∀ᶠ p in 𝓝[>] s, p < s + 1 ∧ Accepted rs a p e x (m p) (E p) (L p) (Q p) (r3 p) (r4 p) := by
    filter_upwards [hev] with p hp
    exact ⟨hp.2.1, hA p hp.1 fun _ _ => hp.2.2⟩
  exact ⟨s, hs, (third_root_tendsto rs ha ha1 he he1 hx0 hx hs hA').2⟩

/-- Near the separatrix `E(r₊²+a²) ≠ aL`. -/
lemma Accepted.horizon_ne {rs : RootScalar} {a p e x : ℝ} {m : MinoFreqs} {E L Q r3 r4 : ℝ}
    (A : Accepted rs a p e x m E L Q r3 r4) (hA : a ^ 2 < 1) (h3 : 1 + √(1 - a ^ 2) < r3) :
    E * ((1 + √(1 - a ^ 2)) ^ 2 + a ^ 2) ≠ a * L := by
  intro heq
  have hsq : 0 < √(1 - a ^ 2) := Real.sqrt_pos.mpr (by linarith)
  have hsq2 : √(1 - a ^ 2) ^ 2 = 1 - a ^ 2 := Real.sq_sqrt (by linarith)
  have hR := A.roots (1 + √(1 - a ^ 2))
  have h0 : Spec.R a E L Q (1 + √(1 - a ^ 2)) = 0 := by
    unfold Spec.R Spec.Delta
    rw [heq]
    linear_combination -((1 + √(1 - a ^ 2)) ^ 2 + (L - a * E) ^ 2 + Q) * hsq2
  rw [h0] at hR
  have hb := A.beta.1
  have h32 := A.r32
  have h21 := A.r21
  have h4 := A.r4h
  refine absurd hR.symm ?_
  refine mul_ne_zero (mul_ne_zero (mul_ne_zero (mul_ne_zero hb.ne' ?_) ?_) ?_) ?_
  all_goals intro hz; linarith

/-- **C61.** Let `0 ≤ a < 1`, `0 ≤ e < 1`, `x ≠ 0`.  Above the separatrix value `s` all orbits have frequencies; as `p`
decreases to `s` the radial frequency tends to zero while the polar frequency stays above `√2 |x|`, so that the number of
polar oscillations per radial one grows without bound. -/
theorem C61_zoom_whirl (rs : RootScalar) (a e x : ℝ) (ha : 0 ≤ a) (ha1 : a < 1) (he : 0 ≤ e) (he1 : e < 1) (hx0 : x ≠ 0)
    (hx : |x| ≤ 1) :
    ∃ (s : ℝ) (m : ℝ → MinoFreqs), separatrix rs a e x = .ok s ∧ (∀ p, s < p → minoFrequencies rs a p e x = .ok (m p))
      ∧ Tendsto (fun p => (m p).upsilonR) (𝓝[>] s) (𝓝[>] 0)
      ∧ (∀ᶠ p in 𝓝[>] s, √2 * |x| ≤ (m p).upsilonTheta)
      ∧ Tendsto (fun p => (m p).upsilonTheta / (m p).upsilonR) (𝓝[>] s) atTop := by
  obtain ⟨s, hs, hv⟩ := C15_separatrix_returns rs a e x ha ha1 he he1.le (abs_le.mp hx).1 (abs_le.mp hx).2
  obtain ⟨m, E, L, Q, r3, r4, hm, hA, hev⟩ := accepted_near rs ha ha1 he he1 hx0 hx hs
  have hA' : ∀ᶠ p in 𝓝[>] s, p < s + 1 ∧ Accepted rs a p e x (m p) (E p) (L p) (Q p) (r3 p) (r4 p) := by
    filter_upwards [hev] with p hp
    exact ⟨hp.2.1, hA p hp.1 fun _ _ => hp.2.2⟩
  have h3 := (third_root_tendsto rs ha ha1 he he1 hx0 hx hs hA').1
  have hx2 : x ^ 2 ≤ 1 := (sq_le_one_iff_abs_le_one x).mpr hx
  have hA2 : a ^ 2 < 1 := by nlinarith
  have h1e : 0 < 1 + e := by linarith
  have h2e : 0 < 1 - e := by linarith
  have hid : Tendsto (fun p : ℝ => p) (𝓝[>] s) (𝓝 s) := nhdsWithin_le_nhds
  have hrad0 : Tendsto (fun p => (m p).upsilonR) (𝓝[>] s) (𝓝 0) := by
    rcases eq_or_lt_of_le he with h0 | h0
    · -- circular orbits
      have hlim : Tendsto (fun p => √((p / (1 + e) - r3 p) * (p / (1 + e)))) (𝓝[>] s) (𝓝 0) := by
        have := (h3.mul (hid.div_const (1 + e))).sqrt
        simpa using this
      refine tendsto_of_tendsto_of_tendsto_of_le_of_le' tendsto_const_nhds hlim ?_ ?_
      · filter_upwards [hA'] with p hp
        exact hp.2.radial_le.1.le
      · filter_upwards [hA'] with p hp
        have := hp.2.radial_le.2.1
        have e0 : p / (1 - e) = p / (1 + e) := by rw [← h0]; norm_num
        rwa [e0] at this
    · -- eccentric orbits
      have hs0 : 0 < s := by
        by_contra hcon
        obtain ⟨p, hp⟩ := (hA'.and (eventually_nhdsWithin_of_eventually_nhds
          (Iio_mem_nhds (show s < 1 by linarith [not_lt.mp hcon])))).exists
        have h1 := hp.1.2.r3h
        have h2 := hp.1.2.r32
        have h4 := Real.sqrt_nonneg (1 - a ^ 2)
        have h5 : p / (1 + e) < 1 := by rw [div_lt_one h1e]; have : p < 1 := hp.2; linarith
        linarith
      have hmR : Tendsto (fun p => mR (p / (1 - e)) (p / (1 + e)) (r3 p) (r4 p)) (𝓝[>] s) (𝓝 1) := by
        have hc1 : 0 < s / (1 - e) - s / (1 + e) := by
          rw [sub_pos]; exact div_lt_div_of_pos_left hs0 h2e (by linarith)
        have hc2 : 0 < √(1 - a ^ 2) := Real.sqrt_pos.mpr (by linarith)
        have hup : Tendsto (fun p => 1 - (s + 1) / (1 - e) * (p / (1 + e) - r3 p)
            / ((s / (1 - e) - s / (1 + e)) * √(1 - a ^ 2))) (𝓝[>] s) (𝓝 1) := by
          have := ((h3.const_mul ((s + 1) / (1 - e))).div_const
            ((s / (1 - e) - s / (1 + e)) * √(1 - a ^ 2))).const_sub 1
          simpa using this
        refine tendsto_of_tendsto_of_tendsto_of_le_of_le' hup tendsto_const_nhds ?_ ?_
        · filter_upwards [hA', self_mem_nhdsWithin] with p hp hps
          have hps : s < p := hps
          have H := hp.2.config
          have q1 := hp.2.r3h
          have q2 := hp.2.r4h
          have q3 := hp.2.r40
          have q4 := hp.2.r32
          have q5 : p / (1 - e) ≤ (s + 1) / (1 - e) := by gcongr; linarith [hp.1]
          have q6 : s / (1 - e) - s / (1 + e) ≤ p / (1 - e) - p / (1 + e) := by
            rw [← sub_nonneg]
            have : p / (1 - e) - p / (1 + e) - (s / (1 - e) - s / (1 + e)) = (p - s) * (1 / (1 - e) - 1 / (1 + e)) := by
              ring
            rw [this]
            refine mul_nonneg (by linarith) ?_
            rw [sub_nonneg]
            exact one_div_le_one_div_of_le h2e (by linarith)
          have e1 : mR (p / (1 - e)) (p / (1 + e)) (r3 p) (r4 p) = 1 - (p / (1 - e) - r4 p) * (p / (1 + e) - r3 p)
              / ((p / (1 - e) - r3 p) * (p / (1 + e) - r4 p)) := by
            have n1 := H.ne13
            have n2 := H.ne24
            unfold mR
            rw [eq_sub_iff_add_eq, ← add_div, div_eq_one_iff_eq (mul_ne_zero n1 n2)]
            ring
          rw [e1]
          refine sub_le_sub_left ?_ 1
          refine div_le_div₀ (mul_nonneg ?_ (by linarith)) ?_ (mul_pos hc1 hc2) ?_
          · have : 0 < p / (1 + e) := by linarith
            have := hp.2.r21
            linarith
          · exact mul_le_mul_of_nonneg_right (by linarith) (by linarith)
          · exact mul_le_mul (by linarith) (by linarith) hc2.le (by linarith [hp.2.r21])
        · filter_upwards [hA'] with p hp
          exact hp.2.config.mR_lt.le
      have hK := ellipk_tendsto (m := fun p => mR (p / (1 - e)) (p / (1 + e)) (r3 p) (r4 p)) (l := 𝓝[>] s) (by
        filter_upwards [hA'] with p hp
        have H := hp.2.config
        refine ⟨?_, H.mR_lt⟩
        unfold mR
        have q4 := hp.2.r32
        have q5 := hp.2.r21
        exact div_nonneg (mul_nonneg (by linarith) (by linarith [H.h43]))
          (mul_nonneg (by linarith) (by linarith [H.h43]))) hmR
      have hlim : Tendsto (fun p => π * (p / (1 - e)) / (2 * ellipk (mR (p / (1 - e)) (p / (1 + e)) (r3 p) (r4 p))))
          (𝓝[>] s) (𝓝 0) :=
        ((hid.div_const (1 - e)).const_mul π).div_atTop (hK.const_mul_atTop two_pos)
      refine tendsto_of_tendsto_of_tendsto_of_le_of_le' tendsto_const_nhds hlim ?_ ?_
      · filter_upwards [hA'] with p hp
        exact hp.2.radial_le.1.le
      · filter_upwards [hA'] with p hp
        exact hp.2.radial_le.2.2
  have hrad : Tendsto (fun p => (m p).upsilonR) (𝓝[>] s) (𝓝[>] 0) := by
    refine tendsto_nhdsWithin_iff.mpr ⟨hrad0, ?_⟩
    filter_upwards [hA'] with p hp
    exact hp.2.radial_le.1
  have hth : ∀ᶠ p in 𝓝[>] s, √2 * |x| ≤ (m p).upsilonTheta := by
    filter_upwards [hA'] with p hp
    exact hp.2.theta_ge hA2.le hx2
  refine ⟨s, m, hs, hm, hrad, hth, ?_⟩
  have hxp : 0 < √2 * |x| := mul_pos (by positivity) (abs_pos.mpr hx0)
  have hbig : Tendsto (fun p => √2 * |x| * ((m p).upsilonR)⁻¹) (𝓝[>] s) atTop :=
    (tendsto_inv_nhdsGT_zero.comp hrad).const_mul_atTop hxp
  refine tendsto_atTop_mono' _ ?_ hbig
  filter_upwards [hth, hA'] with p h1 h2
  have := h2.2.radial_le.1
  rw [← div_eq_mul_inv]
  gcongr

/-- **C61 (coordinate time).** As `p` decreases to the separatrix the radial frequency with respect to coordinate time tends
to zero as well, and on prograde orbits the number of turns around the hole per radial period grows without bound. -/
theorem C61_whirl (rs : RootScalar) (a e x : ℝ) (ha : 0 ≤ a) (ha1 : a < 1) (he : 0 ≤ e) (he1 : e < 1) (hx0 : x ≠ 0)
    (hx : |x| ≤ 1) :
    ∃ (s : ℝ) (w : ℝ → ℝ × ℝ × ℝ), separatrix rs a e x = .ok s
      ∧ (∀ p, s < p → fundamentalFrequencies rs a p e x = .ok (w p))
      ∧ Tendsto (fun p => (w p).1) (𝓝[>] s) (𝓝[>] 0)
      ∧ Tendsto (fun p => (w p).2.1 / (w p).1) (𝓝[>] s) atTop
      ∧ (0 < x → Tendsto (fun p => (w p).2.2 / (w p).1) (𝓝[>] s) atTop) := by
  obtain ⟨s, m, hs, hm, hR, hT, hTR⟩ := C61_zoom_whirl rs a e x ha ha1 he he1 hx0 hx
  obtain ⟨m', E, L, Q, r3, r4, hm', hA, hev⟩ := accepted_near rs ha ha1 he he1 hx0 hx hs
  have hA' : ∀ᶠ p in 𝓝[>] s, p < s + 1 ∧ Accepted rs a p e x (m' p) (E p) (L p) (Q p) (r3 p) (r4 p) := by
    filter_upwards [hev] with p hp
    exact ⟨hp.2.1, hA p hp.1 fun _ _ => hp.2.2⟩
  obtain ⟨h3, hout⟩ := third_root_tendsto rs ha ha1 he he1 hx0 hx hs hA'
  have hA2 : a ^ 2 < 1 := by nlinarith
  have h1e : 0 < 1 + e := by linarith
  have hid : Tendsto (fun p : ℝ => p) (𝓝[>] s) (𝓝 s) := nhdsWithin_le_nhds
  have hs0 : 0 < s := by
    have := Real.sqrt_nonneg (1 - a ^ 2)
    have h : 0 < s / (1 + e) := by linarith
    have := mul_pos h h1e
    rwa [div_mul_cancel₀ _ h1e.ne'] at this
  have h3' : ∀ᶠ p in 𝓝[>] s, 1 + √(1 - a ^ 2) < r3 p := by
    have : Tendsto (fun p => p / (1 + e) - (p / (1 + e) - r3 p)) (𝓝[>] s) (𝓝 (s / (1 + e) - 0)) :=
      (hid.div_const (1 + e)).sub h3
    rw [sub_zero] at this
    filter_upwards [this.eventually (Ioi_mem_nhds hout)] with p hp
    have hp : 1 + √(1 - a ^ 2) < p / (1 + e) - (p / (1 + e) - r3 p) := hp
    linarith
  -- the theorems about complete orbits apply near the separatrix
  have hfull : ∀ᶠ p in 𝓝[>] s, (p / (1 + e)) ^ 2 ≤ (m p).gamma
      ∧ (0 < x → (m p).upsilonTheta ≤ (m p).upsilonPhi) := by
    filter_upwards [hev, hA', h3'] with p hp hp2 hp3
    have hB : Spec.BoundOrbit rs a p e x := by
      refine ⟨by rwa [abs_of_nonneg ha], ⟨he, he1.le⟩, hx, s, ?_, hp.1⟩
      unfold Spec.signedX
      rwa [if_neg (by linarith), abs_of_nonneg ha]
    obtain ⟨hp1, -, hpd⟩ := hp
    have hne := hp2.2.horizon_ne hA2 hp3
    have hne' : x < 0 ∨ ∀ E L Q, constantsOfMotion rs a p e x = .ok (E, L, Q) →
        E * ((1 + √(1 - a ^ 2)) ^ 2 + a ^ 2) ≠ a * L := by
      refine Or.inr fun E' L' Q' hc => ?_
      obtain ⟨c1, c2⟩ := hp2.2.consts_eq hc
      rw [c1, c2]; exact hne
    obtain ⟨T, m1, E1, L1, Q1, r1, r2, r31, r41, hT1, hm1, hc, hr, hb, hE, hE1, hL, hQ, hf, hr2, e2⟩ :=
      orbit_hyps ⟨0, 0, 0, 0⟩ hB ha he1.ne hx0 (fun _ _ => hpd) hne'
    obtain rfl : m1 = m p := Except.ok.inj (hm1.symm.trans (hm p hp1))
    refine ⟨(C46_future ha hT1 hm1 hc hr hb hE hf).2.2.1, fun hx => ?_⟩
    obtain ⟨m2, wr, wth, wph, hm2, -, -, -, -, -, o1, o2, -⟩ :=
      C60_order rs a p e x hB ha he1.ne hx0 (fun _ _ => hpd) hne'
    obtain rfl : m2 = m p := Except.ok.inj (hm2.symm.trans (hm p hp1))
    rcases eq_or_lt_of_le ha with h0 | h0
    · rw [(o1 h0.symm).1, Real.sign_of_pos hx, one_mul]
    · exact (o2 h0 hx).1.le
  have hgpos : ∀ᶠ p in 𝓝[>] s, 0 < (m p).gamma := by
    filter_upwards [hfull, self_mem_nhdsWithin] with p hp hps
    have hps : s < p := hps
    have : 0 < p := by linarith
    have : 0 < (p / (1 + e)) ^ 2 := by positivity
    linarith [hp.1]
  have hRpos : ∀ᶠ p in 𝓝[>] s, 0 < (m p).upsilonR := by
    filter_upwards [(tendsto_nhdsWithin_iff.mp hR).2] with p hp
    exact hp
  refine ⟨s, fun p => ((m p).upsilonR / (m p).gamma, (m p).upsilonTheta / (m p).gamma, (m p).upsilonPhi / (m p).gamma),
    hs, fun p hp => (C25_fundamental rs a p e x _ (hm p hp)).1, ?_, ?_, ?_⟩
  · refine tendsto_nhdsWithin_iff.mpr ⟨?_, ?_⟩
    · have hlim : Tendsto (fun p => (m p).upsilonR / (s / (1 + e)) ^ 2) (𝓝[>] s) (𝓝 0) := by
        have := (tendsto_nhdsWithin_iff.mp hR).1.div_const ((s / (1 + e)) ^ 2)
        simpa using this
      refine tendsto_of_tendsto_of_tendsto_of_le_of_le' tendsto_const_nhds hlim ?_ ?_
      · filter_upwards [hgpos, hRpos] with p h1 h2
        exact (div_pos h2 h1).le
      · filter_upwards [hfull, hRpos, self_mem_nhdsWithin] with p h1 h2 hps
        have hps : s < p := hps
        refine div_le_div_of_nonneg_left h2.le (by positivity) (le_trans ?_ h1.1)
        gcongr
    · filter_upwards [hgpos, hRpos] with p h1 h2
      exact div_pos h2 h1
  · refine hTR.congr' ?_
    filter_upwards [hgpos, hRpos] with p h1 h2
    field_simp
  · intro hx
    refine tendsto_atTop_mono' _ ?_ hTR
    filter_upwards [hgpos, hRpos, hfull] with p h1 h2 h4
    have e1 : (m p).upsilonPhi / (m p).gamma / ((m p).upsilonR / (m p).gamma) = (m p).upsilonPhi / (m p).upsilonR := by
      field_simp
    show (m p).upsilonTheta / (m p).upsilonR ≤ (m p).upsilonPhi / (m p).gamma / ((m p).upsilonR / (m p).gamma)
    rw [e1]
    have := h4.2 hx
    gcongr

/-- Non-vacuity: an inclined eccentric orbit around a spinning hole. -/
example (rs : RootScalar) : ∃ (s : ℝ) (w : ℝ → ℝ × ℝ × ℝ), separatrix rs (9 / 10) (1 / 2) (1 / 2) = .ok s
    ∧ (∀ p, s < p → fundamentalFrequencies rs (9 / 10) p (1 / 2) (1 / 2) = .ok (w p))
    ∧ Tendsto (fun p => (w p).2.2 / (w p).1) (𝓝[>] s) atTop := by
  obtain ⟨s, w, h1, h2, -, -, h3⟩ := C61_whirl rs (9 / 10) (1 / 2) (1 / 2) (by norm_num) (by norm_num) (by norm_num)
    (by norm_num) (by norm_num) (by norm_num [abs_le])
  exact ⟨s, w, h1, h2, h3 (by norm_num)⟩

end KGP
