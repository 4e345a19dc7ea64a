import Verif.Props.SphericalLimits
import Verif.Props.Unbound

/-!
# C84 — what is left at the innermost stable spherical orbit

Among the bound orbits of a given inclination the innermost stable spherical one has the least energy, the least angular
momentum and the least Carter constant; the values taken are exactly the ones above it.
-/

namespace KGP

open Classical Real SepCert Schmidt Filter Topology

section
variable {a x s : ℝ} (ha : 0 ≤ a) (ha1 : a < 1) (hl : -1 ≤ x) (hr : x ≤ 1)
include ha ha1 hl hr

/-- the spherical orbit at a radius beyond the separatrix -/
lemma spherical_beyond (hs : separatrix exampleRS a 0 x = .ok s) {p : ℝ} (hp : s < p) :
    Spec.StableConstants a p 0 x (Spec.sphericalE a p x) (x * Spec.sphericalY a p x) (Spec.sphericalQ a p x)
      ∧ 0 < Spec.sphericalN a p x ∧ 0 < Spec.sphericalY a p x := by
  have hx : x ^ 2 ≤ 1 := by nlinarith
  obtain ⟨E, L, Q, hc⟩ := stableOrbit_iff.mp ((C16_exact exampleRS a p 0 x ha ha1 le_rfl one_pos hl hr).1.mp
    (((C16_threshold exampleRS a 0 x).2.1 p s hs).mpr hp))
  obtain ⟨k1, -, rfl, rfl, rfl⟩ := spherical_stable ha ha1 hx hc
  obtain ⟨Y, o, -, -⟩ := StableConstants.orb ha ha1 le_rfl one_pos hx hc
  rw [sub_zero, add_zero, div_one] at o
  have hsn : 0 < √(1 - a ^ 2) := Real.sqrt_pos.mpr (by nlinarith)
  have hh := hc.1
  rw [add_zero, div_one] at hh
  obtain ⟨-, -, hY⟩ := spherical_solved (by nlinarith : a ^ 2 < 1) hx (by linarith) o.hD o.hY.le o.hPs.le o.root o.root'
  exact ⟨hc, k1, hY ▸ o.hY⟩

lemma spherical_at (hs : separatrix exampleRS a 0 x = .ok s) :
    1 < s ∧ 0 < Spec.sphericalN a s x ∧ 0 ≤ Spec.sphericalY a s x := by
  obtain ⟨⟨E, Y, o⟩, -⟩ := exists_pre ha ha1 le_rfl one_pos hl hr hs le_rfl
  obtain ⟨k1, k2, -, k4⟩ := marginal_closed ha ha1 le_rfl one_pos hl hr hs o
  rw [add_zero, div_one] at k1 k2 k4
  have hsn : 0 < √(1 - a ^ 2) := Real.sqrt_pos.mpr (by nlinarith)
  exact ⟨by linarith, k2, k4 ▸ o.hY⟩

omit ha ha1 hl hr in
lemma spherical_cont {p : ℝ} (hp : p ≠ 0) (hN : 0 < Spec.sphericalN a p x) :
    ContinuousAt (fun p => Spec.sphericalE a p x) p ∧ ContinuousAt (fun p => Spec.sphericalY a p x) p
      ∧ ContinuousAt (fun p => Spec.sphericalQ a p x) p := by
  have cs : ContinuousAt (fun p => Spec.sphericalSigma a p x) p := by
    unfold Spec.sphericalSigma
    exact (ContinuousAt.sqrt (ContinuousAt.div (by fun_prop) continuousAt_id hp)).sub continuousAt_const
  have cN : ContinuousAt (fun p => Spec.sphericalN a p x) p := by
    unfold Spec.sphericalN
    exact ContinuousAt.mul (by fun_prop) (ContinuousAt.sub (by fun_prop) (cs.pow 2))
  have hN' : √(Spec.sphericalN a p x) ≠ 0 := (Real.sqrt_pos.mpr hN).ne'
  have cE : ContinuousAt (fun p => Spec.sphericalE a p x) p := by
    unfold Spec.sphericalE
    exact ContinuousAt.div (ContinuousAt.add (by fun_prop) (cs.const_mul _)) cN.sqrt hN'
  have cY : ContinuousAt (fun p => Spec.sphericalY a p x) p := by
    unfold Spec.sphericalY
    exact ContinuousAt.div (ContinuousAt.add (cs.mul (by fun_prop)) (by fun_prop)) cN.sqrt hN'
  refine ⟨cE, cY, ?_⟩
  unfold Spec.sphericalQ
  exact ((((cE.pow 2).const_sub 1).const_mul (a ^ 2)).add (cY.pow 2)).const_mul (1 - x ^ 2)

omit ha ha1 hl hr in
/-- a function continuous up to the end that increases inside increases from the end on -/
lemma lt_of_interior {f : ℝ → ℝ} {s p : ℝ} (hc : ContinuousAt f s) (hm : ∀ p p', s < p → p < p' → f p < f p') (hp : s < p) :
    f s < f p := by
  have hmid : s < (s + p) / 2 := by linarith
  refine lt_of_le_of_lt (le_of_tendsto (hc.tendsto.mono_left (nhdsWithin_le_nhds (s := Set.Ioi s))) ?_)
    (hm ((s + p) / 2) p hmid (by linarith))
  filter_upwards [Ioo_mem_nhdsGT hmid] with q hq
  exact (hm q _ hq.1 hq.2).le

omit ha ha1 hl hr in
/-- intermediate values -/
lemma range_of_interior {f : ℝ → ℝ} {s v : ℝ} (hc : ∀ p, s ≤ p → ContinuousAt f p) (hv : f s < v) (h : ∃ p, s < p ∧ v < f p) :
    ∃ p, s < p ∧ f p = v := by
  obtain ⟨p, hp, hvp⟩ := h
  obtain ⟨q, hq, rfl⟩ := intermediate_value_Ioo hp.le (fun t ht => (hc t ht.1).continuousWithinAt) ⟨hv, hvp⟩
  exact ⟨q, hq.1, rfl⟩

/-- wide spherical orbits -/
lemma spherical_wide (hs : separatrix exampleRS a 0 x = .ok s) {p : ℝ} (hp : s < p) :
    1 - 1 / p ≤ Spec.sphericalE a p x ∧ p / 2 - 2 ≤ Spec.sphericalY a p x ^ 2 := by
  have hx : x ^ 2 ≤ 1 := by nlinarith
  obtain ⟨hc, -, hY0⟩ := spherical_beyond ha ha1 hl hr hs hp
  obtain ⟨Y, o, hL, hQ⟩ := StableConstants.orb ha ha1 le_rfl one_pos hx hc
  rw [sub_zero, add_zero, div_one] at o
  have hs1 := (spherical_at ha ha1 hl hr hs).1
  have hQd : Spec.sphericalQ a p x = (1 - x ^ 2) * (a ^ 2 * (1 - Spec.sphericalE a p x ^ 2) + Spec.sphericalY a p x ^ 2) := rfl
  obtain ⟨-, hE, hE1, -, hQ0, -, r3, r4, hR, h43, h3⟩ := hc
  rw [sub_zero, add_zero, div_one] at hR
  rw [add_zero, div_one] at h3
  obtain ⟨v1, v2, -, v4⟩ := RadialRoots.vieta hR
  have hsum := o.sum
  clear hR o hL hQ
  generalize Spec.sphericalE a p x = E at *
  generalize Spec.sphericalY a p x = Y at *
  generalize Spec.sphericalQ a p x = Q at *
  have hβ : 0 < 1 - E ^ 2 := by nlinarith
  have hβ1 : 1 - E ^ 2 ≤ 1 := by nlinarith
  have hEE : 1 - E ≤ 1 - E ^ 2 := by nlinarith
  clear hE hE1
  generalize 1 - E ^ 2 = β at *
  have hp1 : 1 < p := by linarith
  have hs34 : 0 ≤ r3 + r4 := by
    by_contra h
    push Not at h
    nlinarith
  have hp34 : 0 ≤ r3 * r4 := by
    by_contra h
    push Not at h
    have h1 : 0 ≤ a ^ 2 * Q := by positivity
    have h2 : β * (p * p * r3 * r4) < 0 := by
      rw [mul_assoc]
      exact mul_neg_of_pos_of_neg hβ (mul_neg_of_pos_of_neg (by positivity) h)
    linarith
  have hβp : 1 / 2 ≤ β * p := by nlinarith
  constructor
  · have : β ≤ 1 / p := by
      rw [le_div_iff₀ (by linarith)]
      nlinarith
    linarith
  · have h1 : β * p ^ 2 ≤ a ^ 2 * β + (x * Y) ^ 2 + Q := by
      rw [← v2]
      have : 0 ≤ β * (2 * p * (r3 + r4) + r3 * r4) := by positivity
      nlinarith
    have h2 : p / 2 ≤ β * p ^ 2 := by nlinarith
    have h3 : a ^ 2 * β ≤ 1 := mul_le_one₀ (by nlinarith) hβ.le hβ1
    have h4 : (1 - x ^ 2) * (a ^ 2 * β) ≤ 1 := mul_le_one₀ (by nlinarith [sq_nonneg x]) (by positivity) h3
    rw [hQd] at h1
    nlinarith

end

namespace Spec

/-- the parameters and constants of the bound orbits of inclination `x` -/
def BoundFamily (a x : ℝ) : Set (ℝ × ℝ × ℝ × ℝ × ℝ) :=
  {v | 0 ≤ v.2.1 ∧ v.2.1 < 1 ∧ StableConstants a v.1 v.2.1 x v.2.2.1 v.2.2.2.1 v.2.2.2.2}

end Spec

section
variable {a x s : ℝ} (ha : 0 ≤ a) (ha1 : a < 1) (hl : -1 ≤ x) (hr : x ≤ 1)
include ha ha1 hl hr

/-- every bound orbit lies above the innermost stable spherical one -/
lemma above_isso (hs : separatrix exampleRS a 0 x = .ok s) {p e E L Q : ℝ} (he : 0 ≤ e) (he1 : e < 1)
    (h : Spec.StableConstants a p e x E L Q) :
    Spec.sphericalE a s x < E ∧ E < 1 ∧ (x ≠ 0 → |x * Spec.sphericalY a s x| < |L|)
      ∧ (|x| ≠ 1 → Spec.sphericalQ a s x < Q) := by
  have hX : |x| ≤ 1 := abs_le.mpr ⟨hl, hr⟩
  obtain ⟨h1, hN, -⟩ := spherical_at ha ha1 hl hr hs
  obtain ⟨cE, cY, cQ⟩ := spherical_cont (by linarith) hN
  -- the spherical orbit of the same semi-latus rectum
  have hst : isStable exampleRS a p e x = .ok true :=
    (C16_exact exampleRS a p e x ha ha1 he he1 hl hr).1.mpr (stableOrbit_iff.mpr ⟨_, _, _, h⟩)
  have hsp : s < p := by
    rcases eq_or_lt_of_le he with rfl | h0
    · exact ((C16_threshold exampleRS a 0 x).2.1 p s hs).mp hst
    · exact ((C16_threshold exampleRS a 0 x).2.1 p s hs).mp
        ((C67_separatrix exampleRS a 0 e x ha ha1 le_rfl h0 he1.le hl hr).2.1 p hst)
  have o := spherical_beyond ha ha1 hl hr hs hsp
  have cmp : Spec.sphericalE a p x ≤ E ∧ (x ≠ 0 → |x * Spec.sphericalY a p x| ≤ |L|) ∧ (|x| ≠ 1 → Spec.sphericalQ a p x ≤ Q) := by
    rcases eq_or_lt_of_le he with rfl | h0
    · obtain ⟨k1, k2, k3⟩ := (C65_orbits a p p 0 x _ _ _ _ _ _ ha ha1 le_rfl one_pos hX o.1 h).1 rfl
      rw [k1, k2, k3]
      exact ⟨le_rfl, fun _ => le_rfl, fun _ => le_rfl⟩
    · obtain ⟨E0, L0, Q0, h', k1, k2, k3⟩ := C68_orbits a p 0 e x E L Q ha ha1 le_rfl h0 he1 hX h
      obtain ⟨rfl, rfl, rfl⟩ := (C65_orbits a p p 0 x _ _ _ _ _ _ ha ha1 le_rfl one_pos hX o.1 h').1 rfl
      exact ⟨k1.le, fun hx => (k2 hx).le, fun hx => (k3 hx).le⟩
  have mono := fun q q' (hq : s < q) (hqq : q < q') =>
    (C65_orbits a q q' 0 x _ _ _ _ _ _ ha ha1 le_rfl one_pos hX (spherical_beyond ha ha1 hl hr hs hq).1
      (spherical_beyond ha ha1 hl hr hs (hq.trans hqq)).1).2.1 hqq
  refine ⟨lt_of_lt_of_le (lt_of_interior (f := fun q => Spec.sphericalE a q x) cE (fun q q' h h' => (mono q q' h h').1) hsp) cmp.1, h.2.2.1, fun hx => ?_, fun hx => ?_⟩
  · exact lt_of_lt_of_le (lt_of_interior (f := fun q => |x * Spec.sphericalY a q x|) (cY.const_mul x).abs
      (fun q q' h h' => (mono q q' h h').2.1 hx) hsp) (cmp.2.1 hx)
  · exact lt_of_lt_of_le (lt_of_interior (f := fun q => Spec.sphericalQ a q x) cQ (fun q q' h h' => (mono q q' h h').2.2 hx) hsp) (cmp.2.2 hx)

end

/-- **C84 (all values).** At every inclination the energies of the bound orbits are exactly the numbers between the energy of the
innermost stable spherical orbit and one; the absolute values of the angular momentum are exactly the numbers above its angular
momentum, and the Carter constants the numbers above its Carter constant. -/
theorem C84_values (rs : RootScalar) (a x : ℝ) (ha : 0 ≤ a) (ha1 : a < 1) (hl : -1 ≤ x) (hr : x ≤ 1) :
    ∃ s, separatrix rs a 0 x = .ok s
      ∧ {E | ∃ p e L Q, (p, e, E, L, Q) ∈ Spec.BoundFamily a x} = Set.Ioo (Spec.sphericalE a s x) 1
      ∧ (x ≠ 0 → {l | ∃ p e E L Q, (p, e, E, L, Q) ∈ Spec.BoundFamily a x ∧ l = |L|}
          = Set.Ioi |x * Spec.sphericalY a s x|)
      ∧ (|x| ≠ 1 → {Q | ∃ p e E L, (p, e, E, L, Q) ∈ Spec.BoundFamily a x} = Set.Ioi (Spec.sphericalQ a s x)) := by
  obtain ⟨f, hf, -⟩ := C15_continuous
  have hm : (a, (0:ℝ), x) ∈ Spec.SeparatrixDomain := ⟨⟨ha, ha1⟩, ⟨le_rfl, zero_le_one⟩, hl, hr⟩
  have hs := hf rs a 0 x hm
  have hs' := hf exampleRS a 0 x hm
  generalize f (a, 0, x) = s at *
  have hx2 : x ^ 2 ≤ 1 := by nlinarith
  obtain ⟨h1, hN, -⟩ := spherical_at ha ha1 hl hr hs'
  have cont : ∀ p, s ≤ p → ContinuousAt (fun p => Spec.sphericalE a p x) p ∧ ContinuousAt (fun p => Spec.sphericalY a p x) p
      ∧ ContinuousAt (fun p => Spec.sphericalQ a p x) p := by
    intro p hp
    rcases eq_or_lt_of_le hp with rfl | h
    · exact spherical_cont (by linarith) hN
    · exact spherical_cont (by linarith) (spherical_beyond ha ha1 hl hr hs' h).2.1
  refine ⟨s, hs, Set.ext fun v => ⟨?_, fun hv => ?_⟩, fun hx => Set.ext fun v => ⟨?_, fun hv => ?_⟩,
    fun hx => Set.ext fun v => ⟨?_, fun hv => ?_⟩⟩
  · rintro ⟨p, e, L, Q, he, he1, h⟩
    have k := above_isso ha ha1 hl hr hs' he he1 h
    exact ⟨k.1, k.2.1⟩
  · obtain ⟨p, hp, rfl⟩ := range_of_interior (fun p hp => (cont p hp).1) hv.1 (by
      have hv1 : 0 < 1 - v := by linarith [hv.2]
      refine ⟨max (s + 1) (2 / (1 - v)), lt_max_of_lt_left (by linarith), ?_⟩
      have hp : s < max (s + 1) (2 / (1 - v)) := lt_max_of_lt_left (by linarith)
      have hw := (spherical_wide ha ha1 hl hr hs' hp).1
      have h2 : 2 / (1 - v) ≤ max (s + 1) (2 / (1 - v)) := le_max_right _ _
      generalize max (s + 1) (2 / (1 - v)) = q at *
      rw [div_le_iff₀ hv1] at h2
      have : 1 / q < 1 - v := by
        rw [div_lt_iff₀ (by linarith)]
        linarith
      linarith)
    exact ⟨p, 0, _, _, le_rfl, one_pos, (spherical_beyond ha ha1 hl hr hs' hp).1⟩
  · rintro ⟨p, e, E, L, Q, ⟨he, he1, h⟩, rfl⟩
    exact (above_isso ha ha1 hl hr hs' he he1 h).2.2.1 hx
  · obtain ⟨p, hp, hpv⟩ := range_of_interior (f := fun q => |x * Spec.sphericalY a q x|)
      (fun p hp => ((cont p hp).2.1.const_mul x).abs) hv (by
      have hx0 : 0 < x ^ 2 := by positivity
      refine ⟨max (s + 1) (2 * (v ^ 2 / x ^ 2 + 3)), lt_max_of_lt_left (by linarith), ?_⟩
      have hp : s < max (s + 1) (2 * (v ^ 2 / x ^ 2 + 3)) := lt_max_of_lt_left (by linarith)
      have hw := (spherical_wide ha ha1 hl hr hs' hp).2
      have h2 : 2 * (v ^ 2 / x ^ 2 + 3) ≤ max (s + 1) (2 * (v ^ 2 / x ^ 2 + 3)) := le_max_right _ _
      generalize max (s + 1) (2 * (v ^ 2 / x ^ 2 + 3)) = q at *
      refine (le_abs_self v).trans_lt (sq_lt_sq.mp ?_)
      rw [mul_pow]
      have : v ^ 2 / x ^ 2 < Spec.sphericalY a q x ^ 2 := by linarith
      rw [div_lt_iff₀ hx0] at this
      linarith)
    exact ⟨p, 0, _, _, _, ⟨le_rfl, one_pos, (spherical_beyond ha ha1 hl hr hs' hp).1⟩, hpv.symm⟩
  · rintro ⟨p, e, E, L, he, he1, h⟩
    exact (above_isso ha ha1 hl hr hs' he he1 h).2.2.2 hx
  · obtain ⟨p, hp, rfl⟩ := range_of_interior (fun p hp => (cont p hp).2.2) hv (by
      have hx1 : 0 < 1 - x ^ 2 := by
        rcases eq_or_lt_of_le hx2 with h | h
        · exact absurd (by rw [← sq_abs] at h; exact (pow_eq_one_iff_of_nonneg (abs_nonneg x) two_ne_zero).mp h) hx
        · linarith
      refine ⟨max (s + 1) (2 * (|v| / (1 - x ^ 2) + 3)), lt_max_of_lt_left (by linarith), ?_⟩
      have hp : s < max (s + 1) (2 * (|v| / (1 - x ^ 2) + 3)) := lt_max_of_lt_left (by linarith)
      have hw := (spherical_wide ha ha1 hl hr hs' hp).2
      obtain ⟨-, hE, hE1, -⟩ := (spherical_beyond ha ha1 hl hr hs' hp).1
      have h2 : 2 * (|v| / (1 - x ^ 2) + 3) ≤ max (s + 1) (2 * (|v| / (1 - x ^ 2) + 3)) := le_max_right _ _
      unfold Spec.sphericalQ
      generalize max (s + 1) (2 * (|v| / (1 - x ^ 2) + 3)) = q at *
      generalize Spec.sphericalE a q x = E at *
      generalize Spec.sphericalY a q x = Y at *
      have k1 : |v| / (1 - x ^ 2) < Y ^ 2 := by linarith
      rw [div_lt_iff₀ hx1] at k1
      have k2 : 0 ≤ (1 - x ^ 2) * (a ^ 2 * (1 - E ^ 2)) := by
        have : 0 ≤ 1 - E ^ 2 := by nlinarith
        positivity
      linarith [le_abs_self v])
    exact ⟨p, 0, _, _, le_rfl, one_pos, (spherical_beyond ha ha1 hl hr hs' hp).1⟩

/-- **C84.** The constants `constants_of_motion` returns for any accepted orbit with `e < 1` exceed those of the innermost stable
spherical orbit of the same inclination (for a negative spin of the orbit with both signs changed). -/
theorem C84_bounds (rs : RootScalar) (a p e x E L Q : ℝ) (h : Spec.BoundOrbit rs a p e x) (he1 : e < 1)
    (hd : 0 < Spec.signedX a x → p ≤ 4 → Spec.DivisorsNonzero a p e x)
    (hk : constantsOfMotion rs a p e x = .ok (E, L, Q)) :
    ∃ s, separatrix rs |a| 0 (Spec.signedX a x) = .ok s ∧ s < p
      ∧ Spec.sphericalE |a| s (Spec.signedX a x) < E ∧ E < 1
      ∧ (x ≠ 0 → |x| * Spec.sphericalY |a| s (Spec.signedX a x) < |L|)
      ∧ (|x| ≠ 1 → Spec.sphericalQ |a| s (Spec.signedX a x) < Q) := by
  obtain ⟨b, hc, d⟩ := bound_std h
  obtain ⟨E', L', Q', c, hst⟩ := constants_stable b (abs_nonneg a) he1 fun h1 h2 => d.mpr (hd h1 h2)
  rw [hc, hk] at c
  obtain ⟨rfl, rfl, rfl⟩ : E = E' ∧ L = L' ∧ Q = Q' := by simpa using c
  have hX := abs_le.mp (by rw [abs_signedX]; exact h.2.2.1 : |Spec.signedX a x| ≤ 1)
  obtain ⟨-, -, -, s, hs, hsp⟩ := C67_bound rs a p 0 e x le_rfl h.2.1.1 h
  have hs' : separatrix exampleRS |a| 0 (Spec.signedX a x) = .ok s := by
    obtain ⟨f, hf, -⟩ := C15_continuous
    have hm : (|a|, (0:ℝ), Spec.signedX a x) ∈ Spec.SeparatrixDomain :=
      ⟨⟨abs_nonneg a, h.1⟩, ⟨le_rfl, zero_le_one⟩, hX.1, hX.2⟩
    rw [hf exampleRS _ _ _ hm, ← hf rs _ _ _ hm, hs]
  obtain ⟨k1, k2, k3, k4⟩ := above_isso (abs_nonneg a) h.1 hX.1 hX.2 hs' h.2.1.1 he1 hst
  have hY := (spherical_at (abs_nonneg a) h.1 hX.1 hX.2 hs').2.2
  refine ⟨s, hs, hsp, k1, k2, fun hx => ?_, fun hx => k4 (by rwa [abs_signedX])⟩
  have := k3 (by rw [← abs_pos, abs_signedX, abs_pos]; exact hx)
  rwa [abs_mul, abs_signedX, abs_of_nonneg hY] at this

/-- **C84 (initial data).** Whatever position and velocity `Orbit` was given: if it is marked stable, its constants lie above
those of the innermost stable spherical orbit of its inclination. -/
theorem C84_initial_data {rs : RootScalar} {a p e x E L Q : ℝ} {pos vel : Vec4} {M mu : Option ℝ} {o : OrbitObj} (ha : 0 < a)
    (ho : mkOrbit rs a pos vel M mu = .ok o)
    (hst : o.stable = true) (hcs : o.consts = (E, L, Q)) (hap : o.apex = (p, e, x))
    (hsin : sin pos.theta ≠ 0) (hE : 0 < E) (hp : 0 < x → p ≤ 4 → Spec.DivisorsNonzero a p e x) :
    ∃ s, separatrix rs a 0 x = .ok s ∧ s < p ∧ Spec.sphericalE a s x < E ∧ E < 1 ∧ |x| * Spec.sphericalY a s x < |L|
      ∧ (|x| ≠ 1 → Spec.sphericalQ a s x < Q) := by
  obtain ⟨hb, hx0, he1, -, -, -, hc⟩ := C75_parameters ha ho hst hcs hap hsin hE hp
  have hsx : Spec.signedX a x = x := by unfold Spec.signedX; rw [if_neg (not_lt.mpr ha.le)]
  obtain ⟨s, hs, h0, h1, h2, h3, h4⟩ := C84_bounds rs a p e x E L Q hb (lt_of_le_of_ne hb.2.1.2 he1) (by rwa [hsx]) hc
  rw [hsx, abs_of_pos ha] at hs h1 h3 h4
  exact ⟨s, hs, h0, h1, h2, h3 hx0, h4⟩

/-- Non-vacuity: the orbit of the instance of C75. -/
example (rs : RootScalar) : ∃ vel o s x, mkOrbit rs (12 / 13) ⟨1, 10, π / 2, 3⟩ vel none none = .ok o ∧ o.stable = true
    ∧ separatrix rs (12 / 13) 0 x = .ok s ∧ Spec.sphericalE (12 / 13) s x < o.consts.1 := by
  obtain ⟨vel, o, x, T, f, ho, hst, hap, -, -, hE, -⟩ := C75_instance rs none
  obtain ⟨s, hs, -, h1, -⟩ := C84_initial_data (E := o.consts.1) (L := o.consts.2.1) (Q := o.consts.2.2) (by norm_num) ho hst rfl
    hap (by simp) hE (fun _ h => absurd h (by norm_num))
  exact ⟨vel, o, s, x, ho, hst, hs, h1⟩

/-- Without spin: an eccentric orbit at `p = 8`, `e = 1 / 2`, `x = 1 / 2` has an energy above `√(8 / 9)`, `|L|` above `√3` and a
Carter constant above `9`. -/
example (rs : RootScalar) : ∃ E L Q, constantsOfMotion rs 0 8 (1 / 2) (1 / 2) = .ok (E, L, Q) ∧ √(8 / 9) < E ∧ E < 1 ∧ √3 < |L|
    ∧ 9 < Q := by
  have hx : Spec.signedX 0 (1 / 2) = 1 / 2 := by unfold Spec.signedX; rw [if_neg (lt_irrefl 0)]
  have h : Spec.BoundOrbit rs 0 8 (1 / 2) (1 / 2) := by
    refine ⟨by norm_num, by norm_num, by norm_num [abs_le], 7, ?_, by norm_num⟩
    rw [abs_zero, C07_separatrix rs _ _ (by norm_num) (by norm_num) (by rw [hx]; norm_num) (by rw [hx]; norm_num)]
    norm_num
  have hc := constantsOfMotion_of_bound h
  refine ⟨_, _, _, hc, ?_⟩
  obtain ⟨s, hs, -, h1, h2, h3, h4⟩ := C84_bounds rs 0 8 (1 / 2) (1 / 2) _ _ _ h (by norm_num) (fun _ h => by norm_num at h) hc
  rw [abs_zero, C07_separatrix rs _ _ (by norm_num) (by norm_num) (by rw [hx]; norm_num) (by rw [hx]; norm_num)] at hs
  obtain rfl : (6 + 2 * 0 : ℝ) = s := Except.ok.inj hs
  rw [hx, abs_zero, mul_zero, add_zero] at h1 h3 h4
  have hσ : Spec.sphericalSigma 0 6 (1 / 2) = √6 := by
    unfold Spec.sphericalSigma
    norm_num
  have hN : Spec.sphericalN 0 6 (1 / 2) = 18 ^ 2 * 2 := by
    unfold Spec.sphericalN
    rw [hσ, Real.sq_sqrt (by norm_num)]
    norm_num
  have hN2 : √(Spec.sphericalN 0 6 (1 / 2)) = 18 * √2 := by
    rw [hN, Real.sqrt_mul (by norm_num), Real.sqrt_sq (by norm_num)]
  have hE : Spec.sphericalE 0 6 (1 / 2) = √(8 / 9) := by
    unfold Spec.sphericalE
    rw [hN2, eq_comm, Real.sqrt_eq_iff_mul_self_eq (by norm_num) (by norm_num; positivity), ← pow_two, div_pow, mul_pow,
      Real.sq_sqrt (by norm_num)]
    norm_num
  have hY : Spec.sphericalY 0 6 (1 / 2) ^ 2 = 12 := by
    unfold Spec.sphericalY
    rw [hN2, hσ, div_pow, mul_pow, Real.sq_sqrt (by norm_num), zero_mul, zero_mul, add_zero, mul_pow, Real.sq_sqrt (by norm_num)]
    norm_num
  have hY0 : 0 ≤ Spec.sphericalY 0 6 (1 / 2) := by
    unfold Spec.sphericalY
    rw [hσ, zero_mul, zero_mul, add_zero]
    positivity
  refine ⟨hE ▸ h1, h2, lt_of_le_of_lt ?_ (h3 (by norm_num)), lt_of_le_of_lt ?_ (h4 (by norm_num [abs_of_pos]))⟩
  · rw [Real.sqrt_le_left (by positivity), mul_pow, hY]
    norm_num [abs_of_pos]
  · unfold Spec.sphericalQ
    rw [hY]
    norm_num

end KGP
