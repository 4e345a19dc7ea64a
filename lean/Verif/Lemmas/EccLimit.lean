import Verif.Lemmas.EccMono

/-!
# Limits of orbits of varying eccentricity

A marginal orbit (the inner turning point is a double root) is not the limit of orbits of larger eccentricity with the
same semi-latus rectum; away from the margin a larger eccentricity belongs to larger constants of motion.
-/

namespace KGP.EMono

open Set Filter Topology

/-- The size of `Y` in a limit of orbits. -/
lemma Pre.Y_bound {A b r s E Y : ℝ} (o : Pre A b r s E Y) (hb : b ^ 2 ≤ A) (hA : A ≤ 1) (hs : 1 ≤ s) (hsr : s ≤ r) :
    Y ^ 2 * (r * s - 1) ≤ r * s * (2 * (r + s) + r * s) + 1 := by
  have hr := hs.trans hsr
  have hrs : 0 < r * s := by positivity
  have f0 := o.fac (by linarith) (by linarith) 0
  have f1 := o.fac (by linarith) (by linarith) 1
  have f2 := o.fac (by linarith) (by linarith) (-1)
  have hE2 := o.E2
  have hE0 : 0 ≤ E ^ 2 := sq_nonneg E
  have hA0 : 0 ≤ A := (sq_nonneg b).trans hb
  have e : Y ^ 2 * (r * s - (A - b ^ 2)) + (2 * A - b ^ 2) * (1 - E ^ 2) * (r * s)
      = (A - b ^ 2) * (A * (1 - E ^ 2)) + r * s * ((r + s) * (2 - (1 - E ^ 2) * (r + s)) + r * s * (1 - E ^ 2)) := by
    have hq0 : q A b E Y r s 0 * (r * s) = -((A - b ^ 2) * (A * (1 - E ^ 2) + Y ^ 2)) := by
      unfold q; field_simp; ring
    have h1 : q A b E Y r s 1 = q A b E Y r s 0 + (E ^ 2 - 1) + (2 + (E ^ 2 - 1) * (r + s)) := by unfold q; ring
    have h2 : q A b E Y r s (-1) = q A b E Y r s 0 + (E ^ 2 - 1) - (2 + (E ^ 2 - 1) * (r + s)) := by unfold q; ring
    rw [h1] at f1
    rw [h2] at f2
    generalize q A b E Y r s 0 = q0 at *
    unfold R D at f0 f1 f2
    linear_combination -(r * s / 2) * f1 - (r * s / 2) * f2 + r * s * f0 - hq0
  have i1 : 0 ≤ (2 * A - b ^ 2) * (1 - E ^ 2) * (r * s) :=
    mul_nonneg (mul_nonneg (by linarith) (by linarith)) hrs.le
  have i2 : (A - b ^ 2) * (A * (1 - E ^ 2)) ≤ 1 * (1 * 1) :=
    mul_le_mul (by nlinarith [sq_nonneg b]) (mul_le_mul hA (by linarith) (by linarith) zero_le_one)
      (mul_nonneg hA0 (by linarith)) zero_le_one
  have i3 : (r + s) * (2 - (1 - E ^ 2) * (r + s)) ≤ (r + s) * 2 :=
    mul_le_mul_of_nonneg_left (by nlinarith) (by linarith)
  have i4 : r * s * (1 - E ^ 2) ≤ r * s * 1 := mul_le_mul_of_nonneg_left (by linarith) hrs.le
  have i5 := mul_le_mul_of_nonneg_left (add_le_add i3 i4) hrs.le
  have i6 : Y ^ 2 * (r * s - 1) ≤ Y ^ 2 * (r * s - (A - b ^ 2)) :=
    mul_le_mul_of_nonneg_left (by nlinarith [sq_nonneg b]) (sq_nonneg Y)
  linarith

/-- **Limits of orbits exist.** -/
lemma cluster {ι : Type*} {l : Filter ι} [l.NeBot] {A b r₀ s₀ : ℝ} {r s E Y : ι → ℝ} (hb : b ^ 2 ≤ A) (hA : A ≤ 1)
    (o : ∀ᶠ t in l, Pre A b (r t) (s t) (E t) (Y t) ∧ s t ≤ r t)
    (hr : Tendsto r l (𝓝 r₀)) (hs : Tendsto s l (𝓝 s₀)) (hs₀ : 1 < s₀) :
    ∃ U : Ultrafilter ι, (U : Filter ι) ≤ l ∧ ∃ E₀ Y₀, Tendsto E U (𝓝 E₀) ∧ Tendsto Y U (𝓝 Y₀) ∧ Pre A b r₀ s₀ E₀ Y₀ := by
  have hsr : s₀ ≤ r₀ := le_of_tendsto_of_tendsto hs hr (o.mono fun _ h => h.2)
  have hv1 : 1 < r₀ * s₀ := by nlinarith
  have hrs := hr.mul hs
  have hg : Tendsto (fun t => (r t * s t * (2 * (r t + s t) + r t * s t) + 1) / (r t * s t - 1)) l
      (𝓝 ((r₀ * s₀ * (2 * (r₀ + s₀) + r₀ * s₀) + 1) / (r₀ * s₀ - 1))) :=
    ((hrs.mul (((hr.add hs).const_mul 2).add hrs)).add_const 1).div (hrs.sub_const 1) (by linarith)
  obtain ⟨M, hM⟩ : ∃ M, M = (r₀ * s₀ * (2 * (r₀ + s₀) + r₀ * s₀) + 1) / (r₀ * s₀ - 1) + 1 := ⟨_, rfl⟩
  have hgM := hg.eventually (gt_mem_nhds (show _ < M by rw [hM]; linarith))
  have h1 := hrs.eventually (lt_mem_nhds hv1)
  have h1s := hs.eventually (lt_mem_nhds hs₀)
  have hcpt : IsCompact (Icc (0:ℝ) 1 ×ˢ Icc (0:ℝ) (M + 1)) := isCompact_Icc.prod isCompact_Icc
  have hin : ∀ᶠ t in l, (E t, Y t) ∈ Icc (0:ℝ) 1 ×ˢ Icc (0:ℝ) (M + 1) := by
    filter_upwards [o, hgM, h1, h1s] with t ot h2 h3 h1s
    have h4 := ot.1.Y_bound hb hA h1s.le ot.2
    have h5 : Y t ^ 2 ≤ (r t * s t * (2 * (r t + s t) + r t * s t) + 1) / (r t * s t - 1) := by
      rw [le_div_iff₀ (by linarith)]; exact h4
    refine ⟨⟨ot.1.hE, ot.1.hE1⟩, ⟨ot.1.hY, ?_⟩⟩
    simp only
    nlinarith [sq_nonneg (Y t - 1), ot.1.hY]
  obtain ⟨⟨E', Y'⟩, -, hcl⟩ := hcpt.exists_mapClusterPt (f := l) (u := fun t => (E t, Y t)) (le_principal_iff.mpr hin)
  obtain ⟨U, hU, hUf⟩ := mapClusterPt_iff_ultrafilter.mp hcl
  have oU : ∀ᶠ t in (U : Filter ι), Pre A b (r t) (s t) (E t) (Y t) := hU (o.mono fun _ h => h.1)
  have hrU := hr.mono_left hU
  have hsU := hs.mono_left hU
  have hbU : Tendsto (fun _ : ι => b) U (𝓝 b) := tendsto_const_nhds
  have hEU : Tendsto E U (𝓝 E') := (continuous_fst.tendsto (E', Y')).comp hUf
  have hYU : Tendsto Y U (𝓝 Y') := (continuous_snd.tendsto (E', Y')).comp hUf
  refine ⟨U, hU, E', Y', hEU, hYU, ?_⟩
  have cP : ∀ {f : ι → ℝ} {f₀ : ℝ}, Tendsto f U (𝓝 f₀) →
      Tendsto (fun t => E t * (f t ^ 2 + A) - b * Y t) U (𝓝 (E' * (f₀ ^ 2 + A) - b * Y')) :=
    fun hf => (hEU.mul ((hf.pow 2).add_const A)).sub (hYU.const_mul b)
  refine ⟨ge_of_tendsto hEU (oU.mono fun t h => h.hE), le_of_tendsto hEU (oU.mono fun t h => h.hE1),
    ge_of_tendsto hYU (oU.mono fun t h => h.hY), ?_, ?_, ge_of_tendsto (cP hrU) (oU.mono fun t h => h.hPr),
    ge_of_tendsto (cP hsU) (oU.mono fun t h => h.hPs), ?_, ?_⟩
  · have c := (R_cont (A := A)).continuousAt.tendsto.comp
      (hbU.prodMk_nhds (hEU.prodMk_nhds (hYU.prodMk_nhds hrU)))
    exact tendsto_nhds_unique_of_eventuallyEq c tendsto_const_nhds (oU.mono fun t h => h.root)
  · have c := (DR_cont (A := A)).continuousAt.tendsto.comp
      (hbU.prodMk_nhds (hEU.prodMk_nhds (hYU.prodMk_nhds (hrU.prodMk_nhds hsU))))
    exact tendsto_nhds_unique_of_eventuallyEq c tendsto_const_nhds (oU.mono fun t h => h.root')
  · have c := ((hEU.pow 2).const_sub 1).mul ((hrU.add hsU).add_const 1)
    exact le_of_tendsto c (oU.mono fun t h => h.sum)
  · intro t ht
    have ct : Tendsto (fun i => t - s₀ + s i) U (𝓝 t) := by
      have := hsU.const_add (t - s₀)
      rwa [sub_add_cancel] at this
    have hne : r₀ * s₀ ≠ 0 := by linarith
    have rsU := hrU.mul hsU
    have c : Tendsto (fun i => q A b (E i) (Y i) (r i) (s i) (t - s₀ + s i)) U (𝓝 (q A b E' Y' r₀ s₀ t)) := by
      unfold q
      exact (((((hEU.pow 2).sub_const 1).mul (ct.pow 2)).add
        (((((hEU.pow 2).sub_const 1).mul (hrU.add hsU)).const_add 2).mul ct)).sub
          (((((hbU.pow 2).const_sub A).const_mul A).mul ((hEU.pow 2).const_sub 1)).div rsU hne)).sub
          ((((hbU.pow 2).const_sub A).mul (hYU.pow 2)).div rsU hne)
    exact le_of_tendsto c (oU.mono fun i h => h.hq _ (by linarith))

/-- the equations for the differences, at a marginal orbit -/
lemma marginal_rows {A b r s E Y r' s' E' Y' d : ℝ} (o : Pre A b r s E Y) (o' : Pre A b r' s' E' Y')
    (hs : 1 < s) (hsr : s < r) (hs' : 1 < s') (hsr' : s < r') (h0 : q A b E Y r s s = 0) (hd : 0 < d)
    (dr : r' - r = r * r' * d) (ds : s - s' = s * s' * d)
    (hB : 0 < Br A b ((E + E') / 2) ((Y + Y') / 2) r' s) :
    (r' - s) * Br A b ((E + E') / 2) ((Y + Y') / 2) r' s
        * (s * s' * ((r' - s) * (1 - E' ^ 2) * (s + s' - iT E' r' s') + (r - s') * (1 - E ^ 2) * (s + s' - iT E r s)))
      ≤ r * r' * (r' - s) * (-q A b E Y r s r') * Br A b ((E + E') / 2) ((Y + Y') / 2) s s'
        - s * s' * (r' - s) * (-q A b E' Y' r' s' s)
          * (be A b ((E + E') / 2) ((Y + Y') / 2) r' * alD A b ((E + E') / 2) ((Y + Y') / 2) s s'
            - al A b ((E + E') / 2) ((Y + Y') / 2) r' * beD A b ((E + E') / 2) ((Y + Y') / 2) s s') := by
  have hr0 : 0 < r := by linarith
  have hs0 : 0 < s := by linarith
  have hr0' : 0 < r' := by linarith
  have hs0' : 0 < s' := by linarith
  have hss : 0 < s - s' := by rw [ds]; positivity
  have hE2 := o.E2
  have hE2' := o'.E2
  have d1 := R_diff A b E Y E' Y' r'
  have d2 := R_diff A b E Y E' Y' s
  have d3 := R_diff A b E Y E' Y' s'
  have j := jac A b ((E + E') / 2) ((Y + Y') / 2) r' s
  have ja := al_sub A b ((E + E') / 2) ((Y + Y') / 2) s s'
  have jb := be_sub A b ((E + E') / 2) ((Y + Y') / 2) s s'
  have f1 := o.fac hr0 hs0 r'
  have f2 := o'.fac hr0' hs0' s
  have f3 := o.fac hr0 hs0 s'
  have z1 := o'.root
  have z2 : R A b E Y s = 0 := by rw [o.fac hr0 hs0]; ring
  have z3 : R A b E' Y' s' = 0 := by rw [o'.fac hr0' hs0']; ring
  have g0 := q_eq (A := A) (b := b) (Y := Y) hE2 hr0 hs0 s
  have g1 := q_eq (A := A) (b := b) (Y := Y) hE2 hr0 hs0 s'
  have g2 := q_eq (A := A) (b := b) (Y := Y') hE2' hr0' hs0' s
  have g3 := q_eq (A := A) (b := b) (Y := Y') hE2' hr0' hs0' s'
  have g4 := o'.hq s' le_rfl
  rw [f1, z1] at d1
  rw [f2, z2] at d2
  rw [f3, z3] at d3
  rw [h0] at g0
  unfold Br at *
  generalize al A b ((E + E') / 2) ((Y + Y') / 2) r' = α₁ at *
  generalize be A b ((E + E') / 2) ((Y + Y') / 2) r' = β₁ at *
  generalize al A b ((E + E') / 2) ((Y + Y') / 2) s = α₂ at *
  generalize be A b ((E + E') / 2) ((Y + Y') / 2) s = β₂ at *
  generalize al A b ((E + E') / 2) ((Y + Y') / 2) s' = α₃ at *
  generalize be A b ((E + E') / 2) ((Y + Y') / 2) s' = β₃ at *
  generalize alD A b ((E + E') / 2) ((Y + Y') / 2) s s' = αD at *
  generalize beD A b ((E + E') / 2) ((Y + Y') / 2) s s' = βD at *
  generalize β₁ * alD A b ((E + E') / 2) ((Y + Y') / 2) r' s - α₁ * beD A b ((E + E') / 2) ((Y + Y') / 2) r' s = B at *
  generalize iT E r s = T at *
  generalize iT E' r' s' = T' at *
  generalize iM A b E Y r s = M at *
  generalize iM A b E' Y' r' s' = M' at *
  generalize q A b E Y r s r' = Q1 at *
  generalize q A b E' Y' r' s' s = Q2 at *
  generalize q A b E Y r s s' = Q3 at *
  generalize q A b E' Y' r' s' s' = Q4 at *
  obtain ⟨x, hx⟩ : ∃ x, x = E' - E := ⟨_, rfl⟩
  obtain ⟨y, hy⟩ : ∃ y, y = Y' - Y := ⟨_, rfl⟩
  rw [← hx, ← hy] at d1 d2 d3
  clear f1 f2 f3 z1 z2 z3 o o' h0 hx hy
  generalize 1 - E ^ 2 = n at *
  have hn' : 0 < 1 - E' ^ 2 := by linarith
  generalize 1 - E' ^ 2 = n' at *
  clear hE2 hE2'
  -- the difference of the rows at `s` and `s'`
  have hD : (s - s') * (αD * x - βD * y) = (s - s') * ((1 / 2) * ((r' - s) * (-Q2) + (r - s') * ((s - s') * (n * (s + s' - T))))) := by
    have q3 : Q3 = (s - s') * (n * (s + s' - T)) := by linear_combination g1 - g0
    rw [← q3]
    linear_combination -x * ja + y * jb - (1 / 2) * d2 + (1 / 2) * d3
  have hD' := mul_left_cancel₀ hss.ne' hD
  have q2 : (s - s') * (n' * (s + s' - T')) ≤ -Q2 := by
    have : -Q2 = -Q4 + (s - s') * (n' * (s + s' - T')) := by linear_combination g3 - g2
    rw [this]; linarith
  have hJ : (r' - s) * B * (αD * x - βD * y) = (1 / 2) * (r' - r) * (r' - s) * (-Q1) * (β₂ * αD - α₂ * βD)
      - (1 / 2) * (s - s') * (r' - s) * (-Q2) * (β₁ * αD - α₁ * βD) := by
    linear_combination -(αD * x - βD * y) * j - (1 / 2) * (β₂ * αD - α₂ * βD) * d1 + (1 / 2) * (β₁ * αD - α₁ * βD) * d2
  rw [hD', dr] at hJ
  have i1 : (1 / 2) * d * (s * s' * ((r' - s) * n' * (s + s' - T') + (r - s') * n * (s + s' - T)))
      ≤ (1 / 2) * ((r' - s) * (-Q2) + (r - s') * ((s - s') * (n * (s + s' - T)))) := by
    have := mul_le_mul_of_nonneg_left q2 (show 0 ≤ r' - s by linarith)
    have e : (1 / 2) * d * (s * s' * ((r' - s) * n' * (s + s' - T') + (r - s') * n * (s + s' - T)))
        = (1 / 2) * ((r' - s) * ((s - s') * (n' * (s + s' - T'))) + (r - s') * ((s - s') * (n * (s + s' - T)))) := by
      rw [ds]; ring
    rw [e]; linarith
  have i2 := mul_le_mul_of_nonneg_left i1 (mul_nonneg (show 0 ≤ r' - s by linarith) hB.le)
  rw [hJ, ds] at i2
  refine le_of_mul_le_mul_left (a := (1 / 2) * d) ?_ (by positivity)
  refine le_trans (le_of_eq ?_) (le_trans i2 (le_of_eq ?_)) <;> ring

/-- **The margin is not approached from larger eccentricities.** -/
lemma marginal_step {ι : Type*} {l : Filter ι} [l.NeBot] {A b r₀ s₀ E₀ Y₀ : ℝ} {r s E Y d : ι → ℝ}
    (hb : b ^ 2 ≤ A) (hA : A ≤ 1) (o : Pre A b r₀ s₀ E₀ Y₀) (hs₀ : 1 < s₀) (hsr : s₀ < r₀) (hD : 0 < D A s₀)
    (h0 : q A b E₀ Y₀ r₀ s₀ s₀ = 0)
    (oi : ∀ᶠ t in l, Pre A b (r t) (s t) (E t) (Y t) ∧ 0 < d t ∧ r t - r₀ = r₀ * r t * d t ∧ s₀ - s t = s₀ * s t * d t)
    (hr : Tendsto r l (𝓝 r₀)) (hs : Tendsto s l (𝓝 s₀)) (hE : Tendsto E l (𝓝 E₀)) (hY : Tendsto Y l (𝓝 Y₀)) : False := by
  have hr1 : 0 < r₀ := by linarith
  have hs1 : 0 < s₀ := by linarith
  have hE2 := o.E2
  have mE : Tendsto (fun t => (E₀ + E t) / 2) l (𝓝 E₀) := by
    have := (hE.const_add E₀).div_const 2
    rwa [add_self_div_two] at this
  have mY : Tendsto (fun t => (Y₀ + Y t) / 2) l (𝓝 Y₀) := by
    have := (hY.const_add Y₀).div_const 2
    rwa [add_self_div_two] at this
  have cb : Tendsto (fun _ : ι => b) l (𝓝 b) := tendsto_const_nhds
  have cs : Tendsto (fun _ : ι => s₀) l (𝓝 s₀) := tendsto_const_nhds
  have t1 := (Br_cont (A := A)).continuousAt.tendsto.comp
    (cb.prodMk_nhds (mE.prodMk_nhds (mY.prodMk_nhds (hr.prodMk_nhds cs))))
  have t2 := (Br_cont (A := A)).continuousAt.tendsto.comp
    (cb.prodMk_nhds (mE.prodMk_nhds (mY.prodMk_nhds (cs.prodMk_nhds hs))))
  have cX : Continuous fun v : ℝ × ℝ × ℝ × ℝ × ℝ => be A b v.1 v.2.1 v.2.2.1 * alD A b v.1 v.2.1 v.2.2.2.1 v.2.2.2.2
      - al A b v.1 v.2.1 v.2.2.1 * beD A b v.1 v.2.1 v.2.2.2.1 v.2.2.2.2 := by
    unfold al be alD beD D; fun_prop
  have t3 := cX.continuousAt.tendsto.comp (mE.prodMk_nhds (mY.prodMk_nhds (hr.prodMk_nhds (cs.prodMk_nhds hs))))
  have t4 := (q_cont (A := A) (b := b) hr1.ne' hs1.ne' E₀ Y₀ s₀).tendsto.comp
    (hE.prodMk_nhds (hY.prodMk_nhds (hr.prodMk_nhds hs)))
  have cq : Continuous fun t => q A b E₀ Y₀ r₀ s₀ t := by unfold q; fun_prop
  have t5 := cq.continuousAt.tendsto.comp hr
  have t6 : Tendsto (fun t => iT (E t) (r t) (s t)) l (𝓝 (iT E₀ r₀ s₀)) := by
    unfold iT
    exact (tendsto_const_nhds.div ((hE.pow 2).const_sub 1) (by linarith)).sub (hr.add hs)
  have hBpos : 0 < Br A b E₀ Y₀ r₀ s₀ := by
    obtain ⟨hm, hv, hPr, hPs⟩ := Br_pre o hb hA hs₀ hsr.le hD
    have B := Br_orbit o.root o.root'
    have k1 : ∀ t : ℝ, 0 < t → 0 < t ^ 2 + A - b ^ 2 := fun t ht => by have := pow_pos ht 2; linarith
    have k2 : ∀ t : ℝ, 0 < t → 0 < t ^ 2 + A - b ^ 2 + (Y₀ - b * E₀) ^ 2 := fun t ht => by
      have := k1 t ht; have := sq_nonneg (Y₀ - b * E₀); linarith
    have := k1 r₀ hr1; have := k1 s₀ hs1; have e1 := k2 r₀ hr1; have e2 := k2 s₀ hs1
    have hpos : 0 < (r₀ ^ 2 + A - b ^ 2 + (Y₀ - b * E₀) ^ 2) * (s₀ ^ 2 + A - b ^ 2 + (Y₀ - b * E₀) ^ 2)
        * Br A b E₀ Y₀ r₀ s₀ := by
      rw [B]
      exact mul_pos (mul_pos (mul_pos (mul_pos hPr hPs) (by linarith)) (mul_pos (by assumption) (by assumption))) hm
    exact (pos_iff_pos_of_mul_pos hpos).mp (mul_pos e1 e2)
  have e1 := t1.eventually (lt_mem_nhds hBpos)
  have e2 := hr.eventually (lt_mem_nhds hsr)
  have e3 := hs.eventually (lt_mem_nhds hs₀)
  have ev : ∀ᶠ t in l, (r t - s₀) * Br A b ((E₀ + E t) / 2) ((Y₀ + Y t) / 2) (r t) s₀
        * (s₀ * s t * ((r t - s₀) * (1 - E t ^ 2) * (s₀ + s t - iT (E t) (r t) (s t))
          + (r₀ - s t) * (1 - E₀ ^ 2) * (s₀ + s t - iT E₀ r₀ s₀)))
      ≤ r₀ * r t * (r t - s₀) * (-q A b E₀ Y₀ r₀ s₀ (r t)) * Br A b ((E₀ + E t) / 2) ((Y₀ + Y t) / 2) s₀ (s t)
        - s₀ * s t * (r t - s₀) * (-q A b (E t) (Y t) (r t) (s t) s₀)
          * (be A b ((E₀ + E t) / 2) ((Y₀ + Y t) / 2) (r t) * alD A b ((E₀ + E t) / 2) ((Y₀ + Y t) / 2) s₀ (s t)
            - al A b ((E₀ + E t) / 2) ((Y₀ + Y t) / 2) (r t) * beD A b ((E₀ + E t) / 2) ((Y₀ + Y t) / 2) s₀ (s t)) := by
    filter_upwards [oi, e1, e2, e3] with t ⟨k1, k2, k3, k4⟩ k5 k6 k7
    exact marginal_rows o k1 hs₀ hsr k7 k6 h0 k2 k3 k4 k5
  have lim := le_of_tendsto_of_tendsto
    (((hr.sub_const s₀).mul t1).mul ((hs.const_mul s₀).mul ((((hr.sub_const s₀).mul ((hE.pow 2).const_sub 1)).mul
      ((hs.const_add s₀).sub t6)).add (((hs.const_sub r₀).mul_const (1 - E₀ ^ 2)).mul ((hs.const_add s₀).sub_const (iT E₀ r₀ s₀))))))
    (((((hr.const_mul r₀).mul (hr.sub_const s₀)).mul t5.neg).mul t2).sub
      ((((hs.const_mul s₀).mul (hr.sub_const s₀)).mul t4.neg).mul t3)) ev
  simp only at lim
  rw [h0] at lim
  have hN := q_eq (A := A) (b := b) (Y := Y₀) hE2 hr1 hs1 r₀
  have hN0 := q_eq (A := A) (b := b) (Y := Y₀) hE2 hr1 hs1 s₀
  rw [h0] at hN0
  have hqr : -q A b E₀ Y₀ r₀ s₀ r₀ = (1 - E₀ ^ 2) * ((r₀ - s₀) * (r₀ + s₀ - iT E₀ r₀ s₀)) := by
    linear_combination -hN + hN0
  rw [hqr] at lim
  have m := (o.marginal hb hA hs₀ hsr hD h0).1
  have hpos : 0 < (r₀ - s₀) ^ 2 * (1 - E₀ ^ 2) := mul_pos (pow_pos (by linarith) 2) (by linarith)
  have := mul_lt_mul_of_pos_left m hpos
  generalize Br A b E₀ Y₀ r₀ s₀ = X1 at *
  generalize Br A b E₀ Y₀ s₀ s₀ = X2 at *
  generalize iT E₀ r₀ s₀ = T at *
  generalize 1 - E₀ ^ 2 = n at *
  clear t1 t2 t3 t4 t5 t6 ev e1 oi
  have e : ∀ X : ℝ, -(0:ℝ) * X = 0 := by intro X; ring
  nlinarith

/-- the difference of the constants from the rows at the new turning points -/
lemma gain_rows {α₁ β₁ α₃ β₃ c1 c3 x y Ym w d : ℝ} (r1 : α₁ * x - β₁ * y = d * c1) (r3 : α₃ * x - β₃ * y = d * c3)
    (hJ : 0 < α₁ * β₃ - β₁ * α₃) (hd : 0 < d) (hc1 : 0 < c1) (hβ : 0 < β₁) (hY : 0 < Ym) (hw : 0 ≤ w)
    (hf : 0 < Ym * α₁ - w * β₁) (hcmp : c3 * (Ym * α₁ - w * β₁) < c1 * (Ym * α₃ - w * β₃)) :
    0 < x ∧ 0 < y ∧ 0 < Ym * y - w * x := by
  have g : 0 < Ym * y - w * x := by
    have e : (α₁ * β₃ - β₁ * α₃) * (Ym * y - w * x)
        = d * (c1 * (Ym * α₃ - w * β₃) - c3 * (Ym * α₁ - w * β₁)) := by
      linear_combination (Ym * α₃ - w * β₃) * r1 - (Ym * α₁ - w * β₁) * r3
    have : 0 < (α₁ * β₃ - β₁ * α₃) * (Ym * y - w * x) := by
      rw [e]; exact mul_pos hd (by linarith)
    exact (pos_iff_pos_of_mul_pos this).mp hJ
  have hx : 0 < x := by
    have e : (Ym * α₁ - w * β₁) * x = Ym * (d * c1) + β₁ * (Ym * y - w * x) := by linear_combination Ym * r1
    have : 0 < (Ym * α₁ - w * β₁) * x := by rw [e]; positivity
    exact (pos_iff_pos_of_mul_pos this).mp hf
  refine ⟨hx, ?_, g⟩
  have : 0 ≤ w * x := mul_nonneg hw hx.le
  have : 0 < Ym * y := by linarith
  exact (pos_iff_pos_of_mul_pos this).mp hY

set_option maxHeartbeats 1000000 in
/-- **Locally, a larger eccentricity belongs to larger constants of motion.** -/
lemma local_ecc {ι : Type*} {l : Filter ι} {A b r₀ s₀ E₀ Y₀ : ℝ} {r s E Y d : ι → ℝ}
    (o : Orb A b r₀ s₀ E₀ Y₀) (hs₀ : 1 < s₀) (hsr : s₀ < r₀)
    (oi : ∀ᶠ t in l, Orb A b (r t) (s t) (E t) (Y t) ∧ 0 < d t ∧ r t - r₀ = r₀ * r t * d t ∧ s₀ - s t = s₀ * s t * d t)
    (hr : Tendsto r l (𝓝 r₀)) (hs : Tendsto s l (𝓝 s₀)) (hE : Tendsto E l (𝓝 E₀)) (hY : Tendsto Y l (𝓝 Y₀)) :
    ∀ᶠ t in l, E₀ < E t ∧ Y₀ < Y t ∧ Y₀ ^ 2 - A * E₀ ^ 2 < Y t ^ 2 - A * E t ^ 2 := by
  have hr1 : 0 < r₀ := by linarith
  have hs1 : 0 < s₀ := by linarith
  have mE : Tendsto (fun t => (E₀ + E t) / 2) l (𝓝 E₀) := by
    have := (hE.const_add E₀).div_const 2
    rwa [add_self_div_two] at this
  have mY : Tendsto (fun t => (Y₀ + Y t) / 2) l (𝓝 Y₀) := by
    have := (hY.const_add Y₀).div_const 2
    rwa [add_self_div_two] at this
  have cb : Tendsto (fun _ : ι => b) l (𝓝 b) := tendsto_const_nhds
  have t1 := (Br_cont (A := A)).continuousAt.tendsto.comp
    (cb.prodMk_nhds (mE.prodMk_nhds (mY.prodMk_nhds (hr.prodMk_nhds hs))))
  have tα := (al_cont (A := A)).continuousAt.tendsto.comp (cb.prodMk_nhds (mE.prodMk_nhds (mY.prodMk_nhds hr)))
  have tβ := (be_cont (A := A)).continuousAt.tendsto.comp (cb.prodMk_nhds (mE.prodMk_nhds (mY.prodMk_nhds hr)))
  have tα' := (al_cont (A := A)).continuousAt.tendsto.comp (cb.prodMk_nhds (mE.prodMk_nhds (mY.prodMk_nhds hs)))
  have tβ' := (be_cont (A := A)).continuousAt.tendsto.comp (cb.prodMk_nhds (mE.prodMk_nhds (mY.prodMk_nhds hs)))
  have cq : Continuous fun t => q A b E₀ Y₀ r₀ s₀ t := by unfold q; fun_prop
  have tq := cq.continuousAt.tendsto.comp hr
  have tq' := cq.continuousAt.tendsto.comp hs
  have tf := (mY.mul tα).sub ((mE.const_mul A).mul tβ)
  have tf' := (mY.mul tα').sub ((mE.const_mul A).mul tβ')
  have hcmp : s₀ * s₀ * (r₀ - s₀) * (-q A b E₀ Y₀ r₀ s₀ s₀) * (Y₀ * al A b E₀ Y₀ r₀ - A * E₀ * be A b E₀ Y₀ r₀)
      < r₀ * r₀ * (r₀ - s₀) * (-q A b E₀ Y₀ r₀ s₀ r₀) * (Y₀ * al A b E₀ Y₀ s₀ - A * E₀ * be A b E₀ Y₀ s₀) := by
    have := mul_lt_mul_of_pos_left (o.cmp hs₀ hsr) (sub_pos.mpr hsr)
    refine lt_of_eq_of_lt ?_ (lt_of_lt_of_eq this ?_) <;> ring
  have ec := ((((hs.const_mul s₀).mul (hs.const_sub r₀)).mul tq'.neg).mul tf).eventually_lt
    ((((hr.const_mul r₀).mul (hr.sub_const s₀)).mul tq.neg).mul tf') hcmp
  have e1 := t1.eventually (lt_mem_nhds o.Br_pos)
  have e2 := tβ.eventually (lt_mem_nhds o.be_r)
  have e3 := tf.eventually (lt_mem_nhds o.gain_r)
  have e4 := mY.eventually (lt_mem_nhds o.hY)
  have e5 := mE.eventually (lt_mem_nhds o.hE)
  have e6 := hr.eventually (lt_mem_nhds hsr)
  have e7 := hs.eventually (gt_mem_nhds hsr)
  filter_upwards [oi, ec, e1, e2, e3, e4, e5, e6, e7] with t ⟨ot, hd, dr, ds⟩ kc k1 k2 k3 k4 k5 k6 k7
  have d1 := R_diff A b E₀ Y₀ (E t) (Y t) (r t)
  have d3 := R_diff A b E₀ Y₀ (E t) (Y t) (s t)
  have j := jac A b ((E₀ + E t) / 2) ((Y₀ + Y t) / 2) (r t) (s t)
  rw [ot.root, o.factor] at d1
  rw [ot.root_s, o.factor] at d3
  have hsrt := ot.hsr
  have hst := ot.hs
  have hA0 : 0 ≤ A := (sq_nonneg b).trans o.hb
  have hq := o.hq (r t) (by linarith)
  have hrt : r₀ ≤ r t := by
    have : 0 ≤ r₀ * r t * d t := mul_nonneg (mul_nonneg hr1.le (by linarith)) hd.le
    linarith
  have hstr : s t < r t := by linarith
  simp only [Function.comp_apply] at kc k1 k2 k3
  have fin := gain_rows (α₁ := al A b ((E₀ + E t) / 2) ((Y₀ + Y t) / 2) (r t))
    (β₁ := be A b ((E₀ + E t) / 2) ((Y₀ + Y t) / 2) (r t)) (α₃ := al A b ((E₀ + E t) / 2) ((Y₀ + Y t) / 2) (s t))
    (β₃ := be A b ((E₀ + E t) / 2) ((Y₀ + Y t) / 2) (s t)) (x := E t - E₀) (y := Y t - Y₀) (d := d t / 2)
    (c1 := r₀ * r t * (r t - s₀) * (-q A b E₀ Y₀ r₀ s₀ (r t))) (c3 := s₀ * s t * (r₀ - s t) * (-q A b E₀ Y₀ r₀ s₀ (s t)))
    (Ym := (Y₀ + Y t) / 2) (w := A * ((E₀ + E t) / 2))
    (by
      have : (r t - r₀) * (r t - s₀) * q A b E₀ Y₀ r₀ s₀ (r t)
        = r₀ * r t * d t * (r t - s₀) * q A b E₀ Y₀ r₀ s₀ (r t) := by rw [dr]
      linear_combination -(1 / 2) * d1 - (1 / 2) * this)
    (by
      have : (s t - r₀) * (s₀ - s t) * q A b E₀ Y₀ r₀ s₀ (s t)
        = (s t - r₀) * (s₀ * s t * d t) * q A b E₀ Y₀ r₀ s₀ (s t) := by rw [ds]
      linear_combination -(1 / 2) * d3 + (1 / 2) * this)
    (by rw [j]; exact mul_pos (by linarith) k1) (by linarith)
    (mul_pos (mul_pos (mul_pos hr1 (by linarith)) (by linarith)) (by linarith)) k2 k4
    (mul_nonneg hA0 k5.le) k3 kc
  obtain ⟨f1, f2, f3⟩ := fin
  refine ⟨by linarith, by linarith, ?_⟩
  linarith

/-- A limit of orbits is outside the horizon. -/
lemma Pre.outside {A b r s E Y : ℝ} (o : Pre A b r s E Y) (hb : b ^ 2 ≤ A) (hs : 1 < s) (hsr : s ≤ r)
    (hD : 0 ≤ D A s) : 0 < D A s := by
  refine lt_of_le_of_ne hD fun h0 => ?_
  have f := o.fac' (by linarith) (by linarith) s
  have hq := o.hq s le_rfl
  have hR : R A b E Y s = 0 := by rw [o.fac (by linarith) (by linarith)]; ring
  have h1 : 0 ≤ DR A b E Y s s := by
    rw [f]; exact mul_nonneg_of_nonpos_of_nonpos (by linarith) hq
  have hP : E * (s ^ 2 + A) - b * Y = 0 := by
    unfold R at hR
    rw [← h0, zero_mul, sub_zero] at hR
    exact pow_eq_zero_iff two_ne_zero |>.mp hR
  have hK : 0 < s ^ 2 + A - b ^ 2 + (Y - b * E) ^ 2 := by
    have := sq_nonneg (Y - b * E); have : 0 < s ^ 2 := by positivity
    linarith
  have e : DR A b E Y s s = 4 * s * E * (E * (s ^ 2 + A) - b * Y) - (2 * s - 2) * (s ^ 2 + A - b ^ 2 + (Y - b * E) ^ 2)
      - 2 * s * D A s := by
    unfold DR D; ring
  rw [e, hP, ← h0] at h1
  have := mul_pos (show 0 < 2 * s - 2 by linarith) hK
  linarith

/-- A limit of orbits whose inner turning point is a simple root is an orbit. -/
lemma Pre.orb_of_simple {A b r s E Y : ℝ} (o : Pre A b r s E Y) (hb : b ^ 2 ≤ A) (hA : A ≤ 1) (hs : 1 < s) (hsr : s ≤ r)
    (hD : 0 < D A s) (h0 : q A b E Y r s s ≠ 0) : Orb A b r s E Y := by
  refine o.orb hb hA hs.le hsr hD fun t ht => ?_
  refine lt_of_le_of_ne (o.hq t ht) fun ht0 => h0 ?_
  have hE2 := o.E2
  have hT := o.T_ge hb hA hs hsr
  have hN := o.N_nonneg hs hsr le_rfl
  rw [q_eq hE2 (by linarith) (by linarith)] at ht0 ⊢
  have hn : 0 < 1 - E ^ 2 := by linarith
  have ht' := (mul_eq_zero.mp (neg_eq_zero.mp ht0)).resolve_left hn.ne'
  have : s ^ 2 - iT E r s * s + iM A b E Y r s = 0 := by
    refine le_antisymm ?_ hN
    generalize iT E r s = T at *
    generalize iM A b E Y r s = M at *
    have e : (t - 1) * (s ^ 2 - T * s + M) = (s - 1) * (t ^ 2 - T * t + M) + (t - s) * (1 - T + M) - (t - 1) * (s - 1) * (t - s) := by
      ring
    have h1 : (t - 1) * (s ^ 2 - T * s + M) ≤ 0 := by
      rw [e, ht']
      have i1 : (t - s) * (1 - T + M) ≤ 0 := mul_nonpos_of_nonneg_of_nonpos (by linarith) (by linarith)
      have i2 : 0 ≤ (t - 1) * (s - 1) * (t - s) := mul_nonneg (mul_nonneg (by linarith) (by linarith)) (by linarith)
      linarith
    by_contra hcon
    have := mul_pos (show 0 < t - 1 by linarith) (not_le.mp hcon)
    linarith
  rw [this]; ring

end KGP.EMono
