import Verif.Props.EllipticIntegrals

/-!
# Elliptic integrals and functions are jointly continuous in all arguments
-/

namespace KGP

open Classical Real Filter Topology

lemma clamp_pos {m m1 : ℝ} (h1 : m1 < 1) (t : ℝ) : 0 < 1 - min m m1 * sin t ^ 2 :=
  one_sub_mul_sin_sq_pos (lt_of_le_of_lt (min_le_right _ _) h1) t

lemma continuousAt_ellipkinc {φ m : ℝ} (hm : m < 1) :
    ContinuousAt (fun z : ℝ × ℝ => ellipkinc z.1 z.2) (φ, m) := by
  have h1 : (m + 1) / 2 < 1 := by linarith
  have hc : Continuous fun z : ℝ × ℝ => ∫ t in (0:ℝ)..z.1, 1 / √(1 - min z.2 ((m + 1) / 2) * sin t ^ 2) := by
    refine intervalIntegral.continuous_parametric_intervalIntegral_of_continuous
      (f := fun (z : ℝ × ℝ) t => 1 / √(1 - min z.2 ((m + 1) / 2) * sin t ^ 2)) ?_ continuous_fst
    unfold Function.uncurry
    refine Continuous.div continuous_const (by fun_prop) fun z => ?_
    exact (Real.sqrt_pos.mpr (clamp_pos h1 _)).ne'
  refine hc.continuousAt.congr ?_
  have : ∀ᶠ z : ℝ × ℝ in 𝓝 (φ, m), z.2 < (m + 1) / 2 :=
    continuousAt_snd.eventually_lt continuousAt_const (by simp only []; linarith)
  filter_upwards [this] with z hz
  rw [min_eq_left hz.le]; rfl

lemma continuous_specE : Continuous fun z : ℝ × ℝ => Spec.E z.1 z.2 := by
  unfold Spec.E
  refine intervalIntegral.continuous_parametric_intervalIntegral_of_continuous
    (f := fun (z : ℝ × ℝ) t => √(1 - z.2 * sin t ^ 2)) ?_ continuous_fst
  unfold Function.uncurry
  fun_prop

lemma continuousAt_specPi {n φ m : ℝ} (hn : n < 1) (hm : m < 1) :
    ContinuousAt (fun z : ℝ × ℝ × ℝ => Spec.Pi z.1 z.2.1 z.2.2) (n, φ, m) := by
  have h1 : (m + 1) / 2 < 1 := by linarith
  have h2 : (n + 1) / 2 < 1 := by linarith
  have hc : Continuous fun z : ℝ × ℝ × ℝ => ∫ t in (0:ℝ)..z.2.1,
      1 / ((1 - min z.1 ((n + 1) / 2) * sin t ^ 2) * √(1 - min z.2.2 ((m + 1) / 2) * sin t ^ 2)) := by
    refine intervalIntegral.continuous_parametric_intervalIntegral_of_continuous
      (f := fun (z : ℝ × ℝ × ℝ) t =>
        1 / ((1 - min z.1 ((n + 1) / 2) * sin t ^ 2) * √(1 - min z.2.2 ((m + 1) / 2) * sin t ^ 2)))
      ?_ (continuous_fst.comp continuous_snd)
    unfold Function.uncurry
    refine Continuous.div continuous_const (by fun_prop) fun z => ?_
    exact mul_ne_zero (clamp_pos h2 _).ne' (Real.sqrt_pos.mpr (clamp_pos h1 _)).ne'
  refine hc.continuousAt.congr ?_
  have e1 : ∀ᶠ z : ℝ × ℝ × ℝ in 𝓝 (n, φ, m), z.2.2 < (m + 1) / 2 :=
    ContinuousAt.eventually_lt (by fun_prop) continuousAt_const (by simp only []; linarith)
  have e2 : ∀ᶠ z : ℝ × ℝ × ℝ in 𝓝 (n, φ, m), z.1 < (n + 1) / 2 :=
    ContinuousAt.eventually_lt (by fun_prop) continuousAt_const (by simp only []; linarith)
  filter_upwards [e1, e2] with z hz hz'
  rw [min_eq_left hz.le, min_eq_left hz'.le]; rfl

/-- The amplitude is jointly continuous: it inverts a jointly continuous, strictly increasing function. -/
lemma continuousAt_am {u m : ℝ} (hm : m < 1) :
    ContinuousAt (fun z : ℝ × ℝ => jacobiAm z.1 z.2) (u, m) := by
  have hm' : ∀ᶠ z : ℝ × ℝ in 𝓝 (u, m), z.2 < 1 :=
    continuousAt_snd.eventually_lt continuousAt_const hm
  have key : ∀ φ : ℝ, ContinuousAt (fun z : ℝ × ℝ => ellipkinc φ z.2) (u, m) := fun φ =>
    ContinuousAt.comp (f := fun z : ℝ × ℝ => (φ, z.2)) (x := (u, m)) (continuousAt_ellipkinc hm) (by fun_prop)
  have hmono : ∀ {m' : ℝ}, m' < 1 → StrictMono fun φ => ellipkinc φ m' := fun h => ellipkinc_strictMono h
  unfold ContinuousAt
  simp only []
  rw [tendsto_order]
  constructor
  · intro b hb
    have h0 : ellipkinc b m < u := by
      have := hmono hm hb
      simpa only [ellipkinc_am hm] using this
    filter_upwards [hm', (key b).eventually_lt continuousAt_fst h0] with z hz1 hz2
    by_contra hcon
    have := (hmono hz1).monotone (not_lt.mp hcon)
    simp only [ellipkinc_am hz1] at this
    exact absurd hz2 (not_lt.mpr this)
  · intro b hb
    have h0 : u < ellipkinc b m := by
      have := hmono hm hb
      simpa only [ellipkinc_am hm] using this
    filter_upwards [hm', continuousAt_fst.eventually_lt (key b) h0] with z hz1 hz2
    by_contra hcon
    have := (hmono hz1).monotone (not_lt.mp hcon)
    simp only [ellipkinc_am hz1] at this
    exact absurd hz2 (not_lt.mpr this)

section
variable {X : Type*} [TopologicalSpace X] {s : Set X} {v : X}

lemma cw_ellipk {m : X → ℝ} (hm : ContinuousWithinAt m s v) (h : m v < 1) :
    ContinuousWithinAt (fun w => ellipk (m w)) s v := by
  have := (continuousAt_ellipkinc (φ := π / 2) h).comp_continuousWithinAt
    (f := fun w => (π / 2, m w)) (continuousWithinAt_const.prodMk hm)
  exact this

lemma cw_ellipe {m : X → ℝ} (hm : ContinuousWithinAt m s v) :
    ContinuousWithinAt (fun w => ellipe (m w)) s v :=
  (continuous_specE.continuousAt (x := (π / 2, m v))).comp_continuousWithinAt
    (f := fun w => (π / 2, m w)) (continuousWithinAt_const.prodMk hm)

lemma cw_am {u m : X → ℝ} (hu : ContinuousWithinAt u s v) (hm : ContinuousWithinAt m s v) (h : m v < 1) :
    ContinuousWithinAt (fun w => jacobiAm (u w) (m w)) s v :=
  (continuousAt_am h).comp_continuousWithinAt (f := fun w => (u w, m w)) (hu.prodMk hm)

lemma cw_lt_one {m : X → ℝ} (hm : ContinuousWithinAt m s v) (h : m v < 1) : ∀ᶠ w in 𝓝[s] v, m w < 1 :=
  hm.eventually (Iio_mem_nhds h)

lemma cw_ellippi {n m : X → ℝ} (hn : ContinuousWithinAt n s v) (hm : ContinuousWithinAt m s v) (h1 : n v < 1)
    (h2 : m v < 1) : ContinuousWithinAt (fun w => ellippiK (n w) (m w)) s v := by
  refine ((continuousAt_specPi (φ := π / 2) h1 h2).comp_continuousWithinAt (f := fun w => (n w, π / 2, m w))
    (hn.prodMk (continuousWithinAt_const.prodMk hm))).congr_of_eventuallyEq ?_ (C17_ellippi _ _ h1 h2)
  filter_upwards [cw_lt_one hn h1, cw_lt_one hm h2] with w k1 k2
  exact C17_ellippi _ _ k1 k2

lemma cw_ellippiinc {φ n m : X → ℝ} (hφ : ContinuousWithinAt φ s v) (hn : ContinuousWithinAt n s v)
    (hm : ContinuousWithinAt m s v) (h1 : n v < 1) (h2 : m v < 1) :
    ContinuousWithinAt (fun w => ellippiincK (φ w) (n w) (m w)) s v := by
  refine ((continuousAt_specPi (φ := φ v) h1 h2).comp_continuousWithinAt (f := fun w => (n w, φ w, m w))
    (hn.prodMk (hφ.prodMk hm))).congr_of_eventuallyEq ?_ (C17_ellippiinc _ _ _ h1 h2)
  filter_upwards [cw_lt_one hn h1, cw_lt_one hm h2] with w k1 k2
  exact C17_ellippiinc _ _ _ k1 k2

lemma cw_ellipeinc {φ m : X → ℝ} (hφ : ContinuousWithinAt φ s v)
    (hm : ContinuousWithinAt m s v) (h2 : m v < 1) :
    ContinuousWithinAt (fun w => ellipeincK (φ w) (m w)) s v := by
  refine ((continuous_specE.continuousAt (x := (φ v, m v))).comp_continuousWithinAt (f := fun w => (φ w, m w))
    (hφ.prodMk hm)).congr_of_eventuallyEq ?_ (C17_ellipeinc _ _ h2)
  filter_upwards [cw_lt_one hm h2] with w k2
  exact C17_ellipeinc _ _ k2

@[fun_prop]
lemma c_ellipk {m : X → ℝ} (hm : Continuous m) (h : ∀ w, m w < 1) : Continuous fun w => ellipk (m w) :=
  continuous_iff_continuousAt.mpr fun w =>
    continuousWithinAt_univ _ _ |>.mp (cw_ellipk (hm.continuousAt.continuousWithinAt) (h w))

@[fun_prop]
lemma c_ellipe {m : X → ℝ} (hm : Continuous m) : Continuous fun w => ellipe (m w) :=
  continuous_iff_continuousAt.mpr fun _ =>
    continuousWithinAt_univ _ _ |>.mp (cw_ellipe (hm.continuousAt.continuousWithinAt))

@[fun_prop]
lemma c_am {u m : X → ℝ} (hu : Continuous u) (hm : Continuous m) (h : ∀ w, m w < 1) :
    Continuous fun w => jacobiAm (u w) (m w) :=
  continuous_iff_continuousAt.mpr fun w => continuousWithinAt_univ _ _ |>.mp
    (cw_am hu.continuousAt.continuousWithinAt hm.continuousAt.continuousWithinAt (h w))

@[fun_prop]
lemma c_ellippi {n m : X → ℝ} (hn : Continuous n) (hm : Continuous m) (h1 : ∀ w, n w < 1)
    (h2 : ∀ w, m w < 1) : Continuous fun w => ellippiK (n w) (m w) :=
  continuous_iff_continuousAt.mpr fun w => continuousWithinAt_univ _ _ |>.mp
    (cw_ellippi hn.continuousAt.continuousWithinAt hm.continuousAt.continuousWithinAt (h1 w) (h2 w))

@[fun_prop]
lemma c_ellippiinc {φ n m : X → ℝ} (hφ : Continuous φ) (hn : Continuous n) (hm : Continuous m)
    (h1 : ∀ w, n w < 1) (h2 : ∀ w, m w < 1) : Continuous fun w => ellippiincK (φ w) (n w) (m w) :=
  continuous_iff_continuousAt.mpr fun w => continuousWithinAt_univ _ _ |>.mp
    (cw_ellippiinc hφ.continuousAt.continuousWithinAt hn.continuousAt.continuousWithinAt
      hm.continuousAt.continuousWithinAt (h1 w) (h2 w))

@[fun_prop]
lemma c_ellipeinc {φ m : X → ℝ} (hφ : Continuous φ) (hm : Continuous m) (h2 : ∀ w, m w < 1) :
    Continuous fun w => ellipeincK (φ w) (m w) :=
  continuous_iff_continuousAt.mpr fun w => continuousWithinAt_univ _ _ |>.mp
    (cw_ellipeinc hφ.continuousAt.continuousWithinAt hm.continuousAt.continuousWithinAt (h2 w))

end

end KGP
