import Verif.Lemmas.KerrGeodesic
import Verif.Props.Spacetime
import Mathlib.Analysis.ODE.ExistUnique
import Mathlib.Analysis.Calculus.ContDiff.RCLike
import Mathlib.Analysis.SpecialFunctions.Trigonometric.Deriv

/-!
# Uniqueness of geodesics of the Kerr metric with given initial data
-/

namespace KGP

open Real Matrix Filter Topology

/-- The coordinates are regular at `X`: off the horizons, the axis and the ring. -/
def Spec.Regular (a : ℝ) (X : Fin 4 → ℝ) : Prop :=
  Spec.Sigma a (X 1) (X 2) ≠ 0 ∧ Spec.Delta a (X 1) ≠ 0 ∧ sin (X 2) ≠ 0

/-- The tangent vector with covariant components `z.2` at the point `z.1`. -/
noncomputable def raiseIdx (a : ℝ) (z : (Fin 4 → ℝ) × (Fin 4 → ℝ)) : Fin 4 → ℝ :=
  ![Spec.dtdlam a (-z.2 0) (z.2 3) (z.1 1) (z.1 2) / Spec.Sigma a (z.1 1) (z.1 2),
    Spec.Delta a (z.1 1) * z.2 1 / Spec.Sigma a (z.1 1) (z.1 2), z.2 2 / Spec.Sigma a (z.1 1) (z.1 2),
    Spec.dphidlam a (-z.2 0) (z.2 3) (z.1 1) (z.1 2) / Spec.Sigma a (z.1 1) (z.1 2)]

/-- The right-hand side of the geodesic equation. -/
noncomputable def geoField (a : ℝ) (z : (Fin 4 → ℝ) × (Fin 4 → ℝ)) : (Fin 4 → ℝ) × (Fin 4 → ℝ) :=
  (raiseIdx a z,
    ![0, 1 / 2 * ∑ α, ∑ β, metricDr a (z.1 1) (z.1 2) α β * raiseIdx a z α * raiseIdx a z β,
      1 / 2 * ∑ α, ∑ β, metricDth a (z.1 1) (z.1 2) α β * raiseIdx a z α * raiseIdx a z β, 0])

lemma raiseIdx_lower {a : ℝ} {X V : Fin 4 → ℝ} (h : Spec.Regular a X) :
    raiseIdx a (X, kerrMetric a X *ᵥ V) = V := by
  obtain ⟨hS, hD, hs⟩ := h
  have hdet : (kerrMetric a X).det ≠ 0 := by
    unfold kerrMetric
    rw [C03_metric_det a _ _ _ _ hS hD]
    exact neg_ne_zero.mpr (mul_ne_zero (pow_ne_zero 2 hS) (pow_ne_zero 2 hs))
  have hinj : Function.Injective (kerrMetric a X).mulVec :=
    Matrix.mulVec_injective_of_isUnit ((Matrix.isUnit_iff_isUnit_det _).mpr hdet.isUnit)
  apply hinj
  generalize kerrMetric a X *ᵥ V = P
  change metric a (X 0) (X 1) (X 2) (X 3) *ᵥ raiseIdx a (X, P) = P
  unfold raiseIdx
  rw [covariant (X 0) (X 3) hS hD hs]
  funext i
  fin_cases i
  · simp
  · simp only []; change Spec.Delta a (X 1) * P 1 / Spec.Delta a (X 1) = P 1; field_simp
  · rfl
  · rfl

lemma contDiffAt_raiseIdx {a : ℝ} {z : (Fin 4 → ℝ) × (Fin 4 → ℝ)} (h : Spec.Regular a z.1) (i : Fin 4) :
    ContDiffAt ℝ 1 (fun z => raiseIdx a z i) z := by
  obtain ⟨hS, hD, hs⟩ := h
  have h1 : ContDiffAt ℝ 1 (fun z : (Fin 4 → ℝ) × (Fin 4 → ℝ) => z.1 1) z := by fun_prop
  have h2 : ContDiffAt ℝ 1 (fun z : (Fin 4 → ℝ) × (Fin 4 → ℝ) => z.1 2) z := by fun_prop
  have hSc : ContDiffAt ℝ 1 (fun z : (Fin 4 → ℝ) × (Fin 4 → ℝ) => Spec.Sigma a (z.1 1) (z.1 2)) z := by
    unfold Spec.Sigma; fun_prop
  have hDc : ContDiffAt ℝ 1 (fun z : (Fin 4 → ℝ) × (Fin 4 → ℝ) => Spec.Delta a (z.1 1)) z := by
    unfold Spec.Delta; fun_prop
  have hs2 : ContDiffAt ℝ 1 (fun z : (Fin 4 → ℝ) × (Fin 4 → ℝ) => sin (z.1 2)) z := by fun_prop
  have hp : ∀ j, ContDiffAt ℝ 1 (fun z : (Fin 4 → ℝ) × (Fin 4 → ℝ) => z.2 j) z := fun j => by fun_prop
  fin_cases i
  · refine ContDiffAt.div ?_ hSc hS
    unfold Spec.dtdlam
    refine ContDiffAt.sub (ContDiffAt.mul (ContDiffAt.div (by fun_prop) hDc hD) (by fun_prop)) (by fun_prop)
  · exact ContDiffAt.div (hDc.mul (hp 1)) hSc hS
  · exact ContDiffAt.div (hp 2) hSc hS
  · refine ContDiffAt.div ?_ hSc hS
    unfold Spec.dphidlam
    refine ContDiffAt.sub (ContDiffAt.mul (ContDiffAt.div (by fun_prop) hDc hD) (by fun_prop))
      (ContDiffAt.sub (by fun_prop) (ContDiffAt.div (by fun_prop) (by fun_prop) (pow_ne_zero 2 hs)))

lemma contDiffAt_metricDr {a : ℝ} {z : (Fin 4 → ℝ) × (Fin 4 → ℝ)} (h : Spec.Regular a z.1) (i j : Fin 4) :
    ContDiffAt ℝ 1 (fun z : (Fin 4 → ℝ) × (Fin 4 → ℝ) => metricDr a (z.1 1) (z.1 2) i j) z := by
  obtain ⟨hS, hD, hs⟩ := h
  unfold Spec.Sigma at hS
  unfold Spec.Delta at hD
  have hS2 := pow_ne_zero 2 hS
  have hD2 := pow_ne_zero 2 hD
  fin_cases i <;> fin_cases j <;> simp only [metricDr] <;>
    first
    | exact contDiffAt_const
    | (refine ContDiffAt.div (by fun_prop) (by fun_prop) ?_ <;> assumption)
    | (simp; fun_prop)

lemma contDiffAt_metricDth {a : ℝ} {z : (Fin 4 → ℝ) × (Fin 4 → ℝ)} (h : Spec.Regular a z.1) (i j : Fin 4) :
    ContDiffAt ℝ 1 (fun z : (Fin 4 → ℝ) × (Fin 4 → ℝ) => metricDth a (z.1 1) (z.1 2) i j) z := by
  obtain ⟨hS, hD, hs⟩ := h
  unfold Spec.Sigma at hS
  unfold Spec.Delta at hD
  have hS2 := pow_ne_zero 2 hS
  have hw : ContDiffAt ℝ 1 (fun z : (Fin 4 → ℝ) × (Fin 4 → ℝ) =>
      (2 * sin (z.1 2) * cos (z.1 2) * (z.1 1 ^ 2 + a ^ 2 * cos (z.1 2) ^ 2)
        - sin (z.1 2) ^ 2 * (-2 * a ^ 2 * cos (z.1 2) * sin (z.1 2)))
        / (z.1 1 ^ 2 + a ^ 2 * cos (z.1 2) ^ 2) ^ 2) z :=
    ContDiffAt.div (by fun_prop) (by fun_prop) hS2
  have hv : ContDiffAt ℝ 1 (fun z : (Fin 4 → ℝ) × (Fin 4 → ℝ) =>
      2 * a ^ 2 * z.1 1 * sin (z.1 2) ^ 2 / (z.1 1 ^ 2 + a ^ 2 * cos (z.1 2) ^ 2)) z :=
    ContDiffAt.div (by fun_prop) (by fun_prop) hS
  have h03 := ContDiffAt.mul (show ContDiffAt ℝ 1 (fun z : (Fin 4 → ℝ) × (Fin 4 → ℝ) => -2 * a * z.1 1) z by
    fun_prop) hw
  have h33 := ContDiffAt.add (ContDiffAt.mul (show ContDiffAt ℝ 1 (fun z : (Fin 4 → ℝ) × (Fin 4 → ℝ) =>
      2 * sin (z.1 2) * cos (z.1 2)) z by fun_prop) (ContDiffAt.add (show ContDiffAt ℝ 1
      (fun z : (Fin 4 → ℝ) × (Fin 4 → ℝ) => z.1 1 ^ 2 + a ^ 2) z by fun_prop) hv))
    (ContDiffAt.mul (show ContDiffAt ℝ 1 (fun z : (Fin 4 → ℝ) × (Fin 4 → ℝ) => sin (z.1 2) ^ 2) z by fun_prop)
      (ContDiffAt.mul (show ContDiffAt ℝ 1 (fun z : (Fin 4 → ℝ) × (Fin 4 → ℝ) => 2 * a ^ 2 * z.1 1) z by fun_prop)
        hw))
  fin_cases i <;> fin_cases j <;> simp only [metricDth] <;>
    first
    | exact contDiffAt_const
    | exact h03
    | exact h33
    | (refine ContDiffAt.div (by fun_prop) (by fun_prop) ?_ <;> assumption)
    | (simp; fun_prop)

lemma contDiffAt_geoField {a : ℝ} {z : (Fin 4 → ℝ) × (Fin 4 → ℝ)} (h : Spec.Regular a z.1) :
    ContDiffAt ℝ 1 (geoField a) z := by
  have hR := contDiffAt_raiseIdx h
  unfold geoField
  refine ContDiffAt.prodMk (contDiffAt_pi.mpr hR) (contDiffAt_pi.mpr fun i => ?_)
  fin_cases i
  · exact contDiffAt_const
  · exact contDiffAt_const.mul (ContDiffAt.sum fun α _ => ContDiffAt.sum fun β _ =>
      ((contDiffAt_metricDr h α β).mul (hR α)).mul (hR β))
  · exact contDiffAt_const.mul (ContDiffAt.sum fun α _ => ContDiffAt.sum fun β _ =>
      ((contDiffAt_metricDth h α β).mul (hR α)).mul (hR β))
  · exact contDiffAt_const

/-- Wherever the coordinates are regular, the geodesic equation is the first-order system `geoField` for the
position and the covariant velocity. -/
lemma geodesicAt_system {a s : ℝ} {X V : ℝ → Fin 4 → ℝ} {ρ : ℝ} (h : Spec.GeodesicAt (kerrMetric a) X V ρ s)
    (hreg : Spec.Regular a (X s)) :
    HasDerivAt (fun y => (X y, kerrMetric a (X y) *ᵥ V y)) (ρ • geoField a (X s, kerrMetric a (X s) *ᵥ V s)) s := by
  obtain ⟨h1, h2⟩ := h
  have hV := raiseIdx_lower (V := V s) hreg
  refine HasDerivAt.prodMk ?_ (hasDerivAt_pi.mpr fun μ => ?_)
  · refine hasDerivAt_pi.mpr fun μ => ?_
    have := h1 μ
    change HasDerivAt (fun y => X y μ) (ρ * raiseIdx a (X s, kerrMetric a (X s) *ᵥ V s) μ) s
    rw [hV]
    exact this
  · obtain ⟨dg, g1, g2⟩ := h2 μ
    refine g2.congr_deriv ?_
    obtain ⟨hS, hD, hs⟩ := hreg
    fin_cases μ
    · have hz : ∀ α β, dg α β = 0 := fun α β => by
        refine (g1 α β).unique ?_
        have : (fun y => kerrMetric a (Function.update (X s) (0 : Fin 4) y) α β)
            = fun _ => metric a 0 (X s 1) (X s 2) (X s 3) α β := by
          funext y; simp [kerrMetric, metric, Function.update]
        exact (hasDerivAt_const _ _).congr_of_eventuallyEq (Eventually.of_forall fun y => congrFun this y)
      change _ = ρ * 0
      simp [hz]
    · have hz : ∀ α β, dg α β = metricDr a (X s 1) (X s 2) α β := fun α β => by
        refine (g1 α β).unique ?_
        exact hasDerivAt_metric_r (X s 0) (X s 3) hS hD α β
      simp only [hz]
      change _ = ρ * (1 / 2 * ∑ α, ∑ β, metricDr a (X s 1) (X s 2) α β * raiseIdx a _ α * raiseIdx a _ β)
      rw [hV]
    · have hz : ∀ α β, dg α β = metricDth a (X s 1) (X s 2) α β := fun α β => by
        refine (g1 α β).unique ?_
        exact hasDerivAt_metric_th (X s 0) (X s 3) hS α β
      simp only [hz]
      change _ = ρ * (1 / 2 * ∑ α, ∑ β, metricDth a (X s 1) (X s 2) α β * raiseIdx a _ α * raiseIdx a _ β)
      rw [hV]
    · have hz : ∀ α β, dg α β = 0 := fun α β => by
        refine (g1 α β).unique ?_
        have : (fun y => kerrMetric a (Function.update (X s) (3 : Fin 4) y) α β)
            = fun _ => metric a (X s 0) (X s 1) (X s 2) 0 α β := by
          funext y; simp [kerrMetric, metric, Function.update]
        exact (hasDerivAt_const _ _).congr_of_eventuallyEq (Eventually.of_forall fun y => congrFun this y)
      change _ = ρ * 0
      simp [hz]

/-- Position and covariant velocity. -/
noncomputable def phaseOf (a : ℝ) (X V : ℝ → Fin 4 → ℝ) (y : ℝ) : (Fin 4 → ℝ) × (Fin 4 → ℝ) :=
  (X y, kerrMetric a (X y) *ᵥ V y)

lemma phaseOf_continuousAt {a s : ℝ} {X V : ℝ → Fin 4 → ℝ} {ρ : ℝ} (h : Spec.GeodesicAt (kerrMetric a) X V ρ s) :
    ContinuousAt (phaseOf a X V) s := by
  obtain ⟨h1, h2⟩ := h
  refine ContinuousAt.prodMk ?_ ?_
  · exact continuousAt_pi.mpr fun μ => (h1 μ).continuousAt
  · refine continuousAt_pi.mpr fun μ => ?_
    obtain ⟨dg, -, g2⟩ := h2 μ
    exact g2.continuousAt

lemma regular_eventually {a s : ℝ} {X : ℝ → Fin 4 → ℝ} (hX : ContinuousAt X s) (h : Spec.Regular a (X s)) :
    ∀ᶠ y in 𝓝 s, Spec.Regular a (X y) := by
  obtain ⟨hS, hD, hs⟩ := h
  have h1 : ContinuousAt (fun y => X y 1) s := (continuousAt_pi.mp hX) 1
  have h2 : ContinuousAt (fun y => X y 2) s := (continuousAt_pi.mp hX) 2
  have c1 : ContinuousAt (fun y => Spec.Sigma a (X y 1) (X y 2)) s := by unfold Spec.Sigma; fun_prop
  have c2 : ContinuousAt (fun y => Spec.Delta a (X y 1)) s := by unfold Spec.Delta; fun_prop
  have c3 : ContinuousAt (fun y => sin (X y 2)) s := by fun_prop
  filter_upwards [c1.eventually_ne hS, c2.eventually_ne hD, c3.eventually_ne hs] with y k1 k2 k3
  exact ⟨k1, k2, k3⟩

lemma geodesic_unique_local {a s : ℝ} {X V Y W : ℝ → Fin 4 → ℝ} {ρ : (Fin 4 → ℝ) → ℝ} (hρ : ContDiff ℝ 1 ρ)
    (hX : ∀ᶠ y in 𝓝 s, Spec.GeodesicAt (kerrMetric a) X V (ρ (X y)) y)
    (hY : ∀ᶠ y in 𝓝 s, Spec.GeodesicAt (kerrMetric a) Y W (ρ (Y y)) y)
    (hreg : Spec.Regular a (X s)) (h0 : phaseOf a X V s = phaseOf a Y W s) :
    phaseOf a X V =ᶠ[𝓝 s] phaseOf a Y W := by
  obtain ⟨K, t, ht, hK⟩ := ContDiffAt.exists_lipschitzOnWith
    (ContDiffAt.smul (hρ.contDiffAt.comp (phaseOf a X V s) contDiffAt_fst)
      (contDiffAt_geoField (z := phaseOf a X V s) hreg))
  have cX := phaseOf_continuousAt hX.self_of_nhds
  have cY := phaseOf_continuousAt hY.self_of_nhds
  have hregY : Spec.Regular a (Y s) := by
    rwa [show Y s = X s from (congrArg Prod.fst h0).symm]
  refine ODE_solution_unique_of_eventually (v := fun _ z => ρ z.1 • geoField a z) (s := fun _ => t) (K := K)
    (Eventually.of_forall fun _ => hK) ?_ ?_ h0
  · filter_upwards [hX, regular_eventually cX.fst hreg, cX.eventually_mem ht] with y k1 k2 k3
    exact ⟨geodesicAt_system k1 k2, k3⟩
  · filter_upwards [hY, regular_eventually cY.fst hregY, cY.eventually_mem (h0 ▸ ht)] with y k1 k2 k3
    exact ⟨geodesicAt_system k1 k2, k3⟩

/-- Two geodesics of the Kerr metric on a common interval, one of them inside the regular region, with the same
position and velocity at one parameter value, coincide.  The affine parameter may run at any smooth position-dependent rate `ρ`. -/
lemma geodesic_unique {a s₁ s₂ s₀ : ℝ} {X V Y W : ℝ → Fin 4 → ℝ} {ρ : (Fin 4 → ℝ) → ℝ}
    (hρ : ContDiff ℝ 1 ρ) (h₀ : s₀ ∈ Set.Ioo s₁ s₂)
    (hX : ∀ s ∈ Set.Ioo s₁ s₂, Spec.GeodesicAt (kerrMetric a) X V (ρ (X s)) s)
    (hY : ∀ s ∈ Set.Ioo s₁ s₂, Spec.GeodesicAt (kerrMetric a) Y W (ρ (Y s)) s)
    (hreg : ∀ s ∈ Set.Ioo s₁ s₂, Spec.Regular a (X s)) (hXY : X s₀ = Y s₀) (hVW : V s₀ = W s₀) :
    ∀ s ∈ Set.Ioo s₁ s₂, X s = Y s ∧ V s = W s := by
  obtain ⟨u, hu⟩ : ∃ u : Set ℝ, u = {s | phaseOf a X V =ᶠ[𝓝 s] phaseOf a Y W} := ⟨_, rfl⟩
  have hev : ∀ {P : ℝ → Prop}, (∀ s ∈ Set.Ioo s₁ s₂, P s) → ∀ s ∈ Set.Ioo s₁ s₂, ∀ᶠ y in 𝓝 s, P y :=
    fun h s hs => by
      filter_upwards [isOpen_Ioo.mem_nhds hs] with y hy using h y hy
  have hopen : IsOpen u := by
    rw [hu]
    exact isOpen_iff_mem_nhds.mpr fun s hs => eventually_eventually_nhds.mpr hs
  have hsub : Set.Ioo s₁ s₂ ⊆ u := by
    refine isPreconnected_Ioo.subset_of_closure_inter_subset hopen ⟨s₀, h₀, ?_⟩ ?_
    · rw [hu]
      refine geodesic_unique_local hρ (hev hX _ h₀) (hev hY _ h₀) (hreg _ h₀) ?_
      unfold phaseOf
      rw [hXY, hVW]
    · rintro s ⟨hcl, hs⟩
      have heq : phaseOf a X V s = phaseOf a Y W s := by
        have cX := phaseOf_continuousAt (hX s hs)
        have cY := phaseOf_continuousAt (hY s hs)
        have : (𝓝[u] s).NeBot := mem_closure_iff_nhdsWithin_neBot.mp hcl
        refine tendsto_nhds_unique (cX.tendsto.mono_left (nhdsWithin_le_nhds (s := u))) ?_
        refine (cY.tendsto.mono_left (nhdsWithin_le_nhds (s := u))).congr' ?_
        filter_upwards [self_mem_nhdsWithin] with y hy
        rw [hu] at hy
        exact (Filter.EventuallyEq.eq_of_nhds hy).symm
      rw [hu]
      exact geodesic_unique_local hρ (hev hX _ hs) (hev hY _ hs) (hreg _ hs) heq
  intro s hs
  have h1 := hsub hs
  rw [hu] at h1
  have h2 : phaseOf a X V s = phaseOf a Y W s := Filter.EventuallyEq.eq_of_nhds h1
  have hx : X s = Y s := congrArg Prod.fst h2
  refine ⟨hx, ?_⟩
  rw [← raiseIdx_lower (V := V s) (hreg s hs), ← raiseIdx_lower (V := W s) (hx ▸ hreg s hs)]
  exact congrArg (raiseIdx a) h2

end KGP
