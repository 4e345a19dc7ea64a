import Verif.Props.Objects
import Mathlib.Analysis.Calculus.Deriv.Polynomial
import Mathlib.Analysis.Calculus.Deriv.Slope

/-!
# C29, C38, C39, C40: plotting helpers, numerical derivative, interpolation table
-/

namespace KGP

open Classical Real

/-! ## C29 -/

/-- The intended predicate for one point: outside the horizon, and in front of the viewing plane or
projecting outside the horizon disc (`p·n` is the height above the plane, `p - (p·n)n` the projection). -/
def Spec.Visible (horizon : ℝ) (n p : Pt) : Prop :=
  horizon ^ 2 < p.dot p ∧
    (0 ≤ p.dot n ∨ horizon ^ 2 < p.dot p - (p.dot n) ^ 2)

lemma viewNormal_unit (el az : ℝ) : (viewNormal el az).dot (viewNormal el az) = 1 := by
  simp only [viewNormal, Pt.dot]
  have h1 := sin_sq_add_cos_sq (el * π / 180)
  have h2 := sin_sq_add_cos_sq (az * π / 180)
  generalize cos (el * π / 180) = c at *
  generalize sin (el * π / 180) = s at *
  generalize cos (az * π / 180) = c' at *
  generalize sin (az * π / 180) = s' at *
  linear_combination h1 + c ^ 2 * h2

lemma projectPt_norm {n p : Pt} (hn : n.dot n = 1) :
    (projectPt n p).dot (projectPt n p) = p.dot p - (p.dot n) ^ 2 := by
  simp only [projectPt, Pt.dot] at *
  linear_combination (p.x * n.x + p.y * n.y + p.z * n.z) ^ 2 * hn

lemma Pt.dot_self_nonneg (p : Pt) : 0 ≤ p.dot p := by
  simp only [Pt.dot]
  nlinarith [mul_self_nonneg p.x, mul_self_nonneg p.y, mul_self_nonneg p.z]

lemma lt_sqrt_iff {h y : ℝ} (hh : 0 ≤ h) : √y > h ↔ h ^ 2 < y := Real.lt_sqrt hh

/-- **C29 (what holds).** For a list of one point `is_visible` is the intended predicate. -/
theorem C29_single (a el az : ℝ) (p : Pt) :
    isVisible a [p] el az = [Spec.Visible (1 + √(1 - a ^ 2)) (viewNormal el az) p] := by
  have hh : (0:ℝ) ≤ 1 + √(1 - a ^ 2) := by positivity
  simp only [isVisible, frobenius, List.map_cons, List.map_nil, List.sum_cons, List.sum_nil, add_zero,
    lt_sqrt_iff hh, projectPt_norm (viewNormal_unit el az), Spec.Visible, ge_iff_le]
  rw [and_comm]

/-- **C29 (what holds in general).** In any list, a point that lies outside the horizon is classified
as intended. -/
theorem C29_outside (a el az : ℝ) (pts : List Pt) (i : ℕ) (hi : i < pts.length)
    (hout : (1 + √(1 - a ^ 2)) ^ 2 < pts[i].dot pts[i]) :
    ∃ h : i < (isVisible a pts el az).length,
      ((isVisible a pts el az)[i] ↔ Spec.Visible (1 + √(1 - a ^ 2)) (viewNormal el az) pts[i]) := by
  have hh : (0:ℝ) ≤ 1 + √(1 - a ^ 2) := by positivity
  have hlen : i < (isVisible a pts el az).length := by simpa [isVisible] using hi
  refine ⟨hlen, ?_⟩
  have hle : pts[i].dot pts[i] ≤ (pts.map fun p => p.dot p).sum := by
    apply List.single_le_sum
    · intro x hx
      obtain ⟨p, -, rfl⟩ := List.mem_map.mp hx
      exact p.dot_self_nonneg
    · exact List.mem_map.mpr ⟨pts[i], List.getElem_mem hi, rfl⟩
  simp only [isVisible, frobenius, List.getElem_map, lt_sqrt_iff hh,
    projectPt_norm (viewNormal_unit el az), Spec.Visible, ge_iff_le]
  have : (1 + √(1 - a ^ 2)) ^ 2 < (pts.map fun p => p.dot p).sum := lt_of_lt_of_le hout hle
  tauto

/-- **C29 (violated).** Points inside the horizon are *not* hidden: as soon as the list contains one
point outside the horizon, every point in front of the viewing plane is reported visible, however close
to the singularity; whereas the same point alone is hidden. -/
theorem C29_violated (a el az : ℝ) (p q : Pt) (hin : p.dot p < (1 + √(1 - a ^ 2)) ^ 2)
    (hfront : 0 ≤ p.dot (viewNormal el az)) (hout : (1 + √(1 - a ^ 2)) ^ 2 < q.dot q) :
    ¬ Spec.Visible (1 + √(1 - a ^ 2)) (viewNormal el az) p
    ∧ (∀ h, (isVisible a [p, q] el az)[0]'h) ∧ ∀ h, ¬ (isVisible a [p] el az)[0]'h := by
  have hh : (0:ℝ) ≤ 1 + √(1 - a ^ 2) := by positivity
  have h0 : ¬ Spec.Visible (1 + √(1 - a ^ 2)) (viewNormal el az) p :=
    fun h => absurd h.1 (not_lt.mpr hin.le)
  refine ⟨h0, fun h => ?_, fun h => ?_⟩
  · simp only [isVisible, frobenius, List.map_cons, List.map_nil, List.sum_cons, List.sum_nil,
      add_zero, lt_sqrt_iff hh, List.getElem_cons_zero]
    refine ⟨.inl hfront, lt_of_lt_of_le hout ?_⟩
    have := p.dot_self_nonneg
    linarith
  · simp only [C29_single, List.getElem_cons_zero]
    exact h0

/-- Non-vacuity of `C29_violated`: the singularity itself, plotted together with a point at radius 3. -/
example : ∃ p q : Pt, p.dot p < (1 + √(1 - (0:ℝ) ^ 2)) ^ 2 ∧ 0 ≤ p.dot (viewNormal 30 (-60))
    ∧ (1 + √(1 - (0:ℝ) ^ 2)) ^ 2 < q.dot q := by
  refine ⟨⟨0, 0, 0⟩, ⟨3, 0, 0⟩, ?_, ?_, ?_⟩ <;> (simp [Pt.dot]; try norm_num)

/-- The radius of a plotted point is the Boyer–Lindquist radius, so "outside the horizon" in
`is_visible` means `|r| > r_+`. -/
theorem C29_cartesian (T : Traj) (lam : ℝ) :
    (cartesian T lam).dot (cartesian T lam) = T.r lam ^ 2 := by
  simp only [cartesian, Pt.dot]
  have h1 := sin_sq_add_cos_sq (T.theta lam)
  have h2 := sin_sq_add_cos_sq (T.phi lam)
  generalize cos (T.theta lam) = c at *
  generalize sin (T.theta lam) = s at *
  generalize cos (T.phi lam) = c' at *
  generalize sin (T.phi lam) = s' at *
  linear_combination T.r lam ^ 2 * h1 + T.r lam ^ 2 * s ^ 2 * h2

/-! ## C38 -/

/-- **C38 (exactness).** On every component that is a polynomial of degree at most four in Mino time
the five-point formula of `numerical_four_velocity` returns the derivative divided by
`Sigma = r² + a² cos²θ`, for every step `dx ≠ 0`. -/
theorem C38_exact (a : ℝ) (T : Traj) (dx lam : ℝ) (hdx : dx ≠ 0) (P : Polynomial ℝ)
    (hP : P.natDegree ≤ 4) :
    let Sig := T.r lam ^ 2 + a ^ 2 * cos (T.theta lam) ^ 2
    let U := numericalFourVelocityOf a T dx
    (T.t = P.eval → U.t lam = deriv T.t lam / Sig) ∧ (T.r = P.eval → U.r lam = deriv T.r lam / Sig)
    ∧ (T.theta = P.eval → U.theta lam = deriv T.theta lam / Sig)
    ∧ (T.phi = P.eval → U.phi lam = deriv T.phi lam / Sig) := by
  intro Sig U
  have key : ∀ f : ℝ → ℝ, f = P.eval → ∀ sig : ℝ → ℝ,
      fivePoint f sig dx lam = deriv f lam / sig lam := by
    intro f hf sig
    have hev : ∀ y, f y = ∑ i ∈ Finset.range 5, P.coeff i * y ^ i := by
      intro y
      rw [hf]
      exact Polynomial.eval_eq_sum_range' (lt_of_le_of_lt hP (by norm_num)) y
    have hd : deriv f lam = P.coeff 1 + 2 * P.coeff 2 * lam + 3 * P.coeff 3 * lam ^ 2
        + 4 * P.coeff 4 * lam ^ 3 := by
      rw [hf, Polynomial.deriv, Polynomial.eval_eq_sum_range' (n := 4)]
      · simp only [Finset.sum_range_succ, Finset.sum_range_zero, Polynomial.coeff_derivative]
        push_cast
        ring
      · exact lt_of_le_of_lt (Polynomial.natDegree_derivative_le P) (by omega)
    unfold fivePoint
    rw [hd, hev, hev, hev, hev]
    simp only [Finset.sum_range_succ, Finset.sum_range_zero]
    rw [show 12 * dx * sig lam = (12 * dx) * sig lam from rfl, ← div_div]
    congr 1
    field_simp
    ring
  obtain ⟨sg, hsg⟩ : ∃ sg : ℝ → ℝ, sg = fun l => T.r l ^ 2 + a ^ 2 * cos (T.theta l) ^ 2 := ⟨_, rfl⟩
  have hSig : Sig = sg lam := by rw [hsg]
  have hU : U = ⟨fivePoint T.t sg dx, fivePoint T.r sg dx, fivePoint T.theta sg dx,
      fivePoint T.phi sg dx⟩ := by rw [hsg]; rfl
  rw [hSig, hU]
  exact ⟨fun h => key _ h _, fun h => key _ h _, fun h => key _ h _, fun h => key _ h _⟩

lemma fivePoint_tendsto {f sig : ℝ → ℝ} {lam f' : ℝ} (h : HasDerivAt f f' lam) :
    Filter.Tendsto (fun dx => fivePoint f sig dx lam) (nhdsWithin 0 {0}ᶜ)
      (nhds (f' / sig lam)) := by
  have hc : ∀ c : ℝ, Filter.Tendsto (fun dx => (f (lam + c * dx) - f lam) / dx)
      (nhdsWithin 0 {0}ᶜ) (nhds (c * f')) := by
    intro c
    have h0 : HasDerivAt (fun y : ℝ => f (lam + c * y)) (f' * c) 0 := by
      have hin : HasDerivAt (fun y : ℝ => lam + c * y) c 0 := by
        simpa using ((hasDerivAt_id (0:ℝ)).const_mul c).const_add lam
      have h' : HasDerivAt f f' (lam + c * 0) := by simpa using h
      exact h'.comp 0 hin
    have := h0.tendsto_slope
    rw [mul_comm] at this
    refine this.congr ?_
    intro y
    rw [slope_def_field]
    simp
  have h2 := hc 2
  have h1 := hc 1
  have h3 := hc (-1)
  have h4 := hc (-2)
  have := ((((h1.const_mul 8).sub (h3.const_mul 8)).sub h2).add h4).div_const (12 * sig lam)
  have hlim : (8 * (1 * f') - 8 * (-1 * f') - 2 * f' + -2 * f') / (12 * sig lam) = f' / sig lam := by
    rw [show 8 * (1 * f') - 8 * (-1 * f') - 2 * f' + -2 * f' = 12 * f' by ring]
    rw [mul_div_mul_left _ _ (by norm_num)]
  rw [hlim] at this
  refine this.congr' ?_
  filter_upwards [self_mem_nhdsWithin] with dx hdx
  have hdx' : dx ≠ 0 := hdx
  unfold fivePoint
  have e1 : lam + 1 * dx = lam + dx := by ring
  have e2 : lam + -1 * dx = lam - dx := by ring
  have e3 : lam + -2 * dx = lam - 2 * dx := by ring
  rw [e1, e2, e3, show 12 * dx * sig lam = dx * (12 * sig lam) by ring,
    ← div_div _ dx (12 * sig lam)]
  congr 1
  field_simp
  ring

/-- **C38 (convergence).** For every differentiable trajectory the numerical four-velocity tends, as
the step goes to zero, to the derivative divided by `Sigma`, in all four components. -/
theorem C38_converges (a : ℝ) (T : Traj) (lam vt vr vth vph : ℝ) (ht : HasDerivAt T.t vt lam)
    (hr : HasDerivAt T.r vr lam) (hth : HasDerivAt T.theta vth lam)
    (hph : HasDerivAt T.phi vph lam) :
    let Sig := T.r lam ^ 2 + a ^ 2 * cos (T.theta lam) ^ 2
    let U := fun dx => numericalFourVelocityOf a T dx
    let zero := nhdsWithin (0:ℝ) {0}ᶜ
    Filter.Tendsto (fun dx => (U dx).t lam) zero (nhds (vt / Sig))
    ∧ Filter.Tendsto (fun dx => (U dx).r lam) zero (nhds (vr / Sig))
    ∧ Filter.Tendsto (fun dx => (U dx).theta lam) zero (nhds (vth / Sig))
    ∧ Filter.Tendsto (fun dx => (U dx).phi lam) zero (nhds (vph / Sig)) := by
  intro Sig U zero
  obtain ⟨sg, hsg⟩ : ∃ sg : ℝ → ℝ, sg = fun l => T.r l ^ 2 + a ^ 2 * cos (T.theta l) ^ 2 := ⟨_, rfl⟩
  have hSig : Sig = sg lam := by rw [hsg]
  have hU : U = fun dx => ⟨fivePoint T.t sg dx, fivePoint T.r sg dx, fivePoint T.theta sg dx,
      fivePoint T.phi sg dx⟩ := by rw [hsg]; rfl
  rw [hSig, hU]
  exact ⟨fivePoint_tendsto ht, fivePoint_tendsto hr, fivePoint_tendsto hth, fivePoint_tendsto hph⟩

/-- **C38 (object).** `numerical_four_velocity` differentiates the orbit's own `trajectory()`, for the
stored phases or the ones passed. -/
theorem C38_object (rs : RootScalar) (o : OrbitObj) (dx : ℝ) (q : Option Phases) (T : Traj)
    (hT : o.trajectoryNat rs q = .ok T) :
    o.numericalFourVelocity rs dx q = .ok (numericalFourVelocityOf o.a T dx) := by
  unfold OrbitObj.numericalFourVelocity
  have : o.trajectoryNat rs (some (q.getD o.phases)) = .ok T := by
    rw [← hT]; unfold OrbitObj.trajectoryNat; simp
  simp only [this, bind_ok]
  rfl

/-- Non-vacuity of C38: a trajectory with a quartic component, and one with a sine. -/
example : ((numericalFourVelocityOf (1 / 2) ⟨fun l => l ^ 4, fun _ => 5, fun _ => 1, fun _ => 0⟩
      (1 / 10)).t 2 = 32 / (5 ^ 2 + (1 / 2) ^ 2 * cos 1 ^ 2)) := by
  have h := (C38_exact (1 / 2) ⟨fun l => l ^ 4, fun _ => 5, fun _ => 1, fun _ => 0⟩ (1 / 10) 2
    (by norm_num) (Polynomial.X ^ 4) (by simp)).1 (by funext y; simp)
  rw [h]
  congr 1
  simp
  norm_num

/-! ## C39 -/

lemma mapM_ok {α β : Type} {f : α → Py β} : ∀ {l : List α} {v : List β}, l.mapM f = .ok v →
    v.length = l.length ∧ ∀ i (h : i < l.length) (h' : i < v.length), f l[i] = .ok v[i]
  | [], v, h => by
    cases Except.ok.inj h
    exact ⟨rfl, fun i h => absurd h (Nat.not_lt_zero i)⟩
  | a :: l, v, h => by
    rw [List.mapM_cons] at h
    obtain ⟨b, hb, h⟩ := bind_eq_ok.mp h
    obtain ⟨bs, hbs, h⟩ := bind_eq_ok.mp h
    cases Except.ok.inj h
    obtain ⟨hl, hi⟩ := mapM_ok hbs
    refine ⟨by simp [hl], fun i h h' => ?_⟩
    cases i with
    | zero => exact hb
    | succ i =>
      simp only [List.getElem_cons_succ]
      exact hi i _ _

lemma mapM_returns {α β : Type} {f : α → Py β} : ∀ {l : List α}, (∀ x ∈ l, (f x).Returns) →
    (l.mapM f).Returns
  | [], _ => ⟨[], rfl⟩
  | a :: l, h => by
    obtain ⟨b, hb⟩ := h a (by simp)
    obtain ⟨bs, hbs⟩ := mapM_returns (l := l) fun x hx => h x (by simp [hx])
    exact ⟨b :: bs, by rw [List.mapM_cons, hb, hbs]; rfl⟩

/-- **C39.** The table handed to the interpolator has one row per `e` and one column per `x` of the two
axes handed to it, and entry `(i, j)` is `separatrix(a, e_i, x_j)`. -/
theorem C39_table (rs : RootScalar) (a g : ℝ) (t : SepTable)
    (h : fastSeparatrixTable rs a g = .ok t) :
    t.table.length = t.numE
    ∧ ∀ i (hi : i < t.table.length), t.table[i].length = t.numX
      ∧ ∀ j (hj : j < t.table[i].length),
          separatrix rs a (t.eAxis i) (t.xAxis j) = .ok t.table[i][j] := by
  unfold fastSeparatrixTable at h
  obtain ⟨P, hP, h⟩ := bind_eq_ok.mp h
  cases Except.ok.inj h
  obtain ⟨hl, hrow⟩ := mapM_ok hP
  rw [List.length_range] at hl
  refine ⟨hl, fun i hi => ?_⟩
  have hr := hrow i (by rw [List.length_range, ← hl]; exact hi) hi
  rw [List.getElem_range] at hr
  obtain ⟨hl', hent⟩ := mapM_ok hr
  rw [List.length_range] at hl'
  refine ⟨hl', fun j hj => ?_⟩
  have he := hent j (by rw [List.length_range, ← hl']; exact hj) hj
  rw [List.getElem_range] at he
  exact he

lemma linspace_mem {lo hi : ℝ} (h : lo ≤ hi) {n i : ℕ} (hi' : i < n) :
    lo ≤ linspace lo hi n i ∧ linspace lo hi n i ≤ hi := by
  unfold linspace
  split_ifs with h1
  · exact ⟨le_rfl, h⟩
  · have hn : 2 ≤ n := by omega
    have h2 : (0:ℝ) < (n:ℝ) - 1 := by
      have : (2:ℝ) ≤ n := by exact_mod_cast hn
      linarith
    have h3 : (i:ℝ) ≤ (n:ℝ) - 1 := by
      have : ((i + 1 : ℕ) : ℝ) ≤ n := by exact_mod_cast hi'
      push_cast at this; linarith
    have h4 : (i:ℝ) / ((n:ℝ) - 1) ≤ 1 := (div_le_one h2).mpr h3
    have h5 : (0:ℝ) ≤ (i:ℝ) / ((n:ℝ) - 1) := by positivity
    rw [mul_div_assoc]
    constructor <;> nlinarith

/-- **C39.** For `0 ≤ a < 1` the table is always built; the axes are equally spaced, start at `0` and
`-1` and, when the grid has at least two points, end at `1` and `1`. -/
theorem C39_grid (rs : RootScalar) (a g : ℝ) (ha : 0 ≤ a) (ha1 : a < 1) :
    ∃ t, fastSeparatrixTable rs a g = .ok t
      ∧ (0 < g → (t.numE : ℤ) = ⌊1 / g⌋ ∧ (t.numX : ℤ) = ⌊2 / g⌋)
      ∧ t.eAxis 0 = 0 ∧ t.xAxis 0 = -1
      ∧ (2 ≤ t.numE → t.eAxis (t.numE - 1) = 1
          ∧ ∀ i, t.eAxis (i + 1) - t.eAxis i = 1 / ((t.numE : ℝ) - 1))
      ∧ (2 ≤ t.numX → t.xAxis (t.numX - 1) = 1
          ∧ ∀ i, t.xAxis (i + 1) - t.xAxis i = 2 / ((t.numX : ℝ) - 1)) := by
  have hret : ((List.range (pyInt (1 / g)).toNat).mapM fun i =>
      (List.range (pyInt (2 / g)).toNat).mapM fun j =>
        separatrix rs a (linspace 0 1 (pyInt (1 / g)).toNat i)
          (linspace (-1) 1 (pyInt (2 / g)).toNat j)).Returns := by
    refine mapM_returns fun i hi => mapM_returns fun j hj => ?_
    rw [List.mem_range] at hi hj
    have h1 := linspace_mem (show (0:ℝ) ≤ 1 by norm_num) hi
    have h2 := linspace_mem (show (-1:ℝ) ≤ 1 by norm_num) hj
    obtain ⟨s, hs, -⟩ := C15_separatrix_returns rs a _ _ ha ha1 h1.1 h1.2 h2.1 h2.2
    exact ⟨s, hs⟩
  obtain ⟨P, hP⟩ := hret
  have hlast : ∀ (lo hi : ℝ) (n : ℕ), 2 ≤ n → linspace lo hi n (n - 1) = hi
      ∧ ∀ i, linspace lo hi n (i + 1) - linspace lo hi n i = (hi - lo) / ((n:ℝ) - 1) := by
    intro lo hi n hn
    have hne : n ≠ 1 := by omega
    have h2 : (n:ℝ) - 1 ≠ 0 := by
      have : (2:ℝ) ≤ n := by exact_mod_cast hn
      linarith
    simp only [linspace, hne, if_false]
    constructor
    · rw [Nat.cast_sub (by omega)]; push_cast; field_simp; ring
    · intro i; push_cast; field_simp; ring
  refine ⟨_, by unfold fastSeparatrixTable; simp only [hP, bind_ok]; rfl, ?_, ?_, ?_, ?_, ?_⟩
  · intro hg
    have h1 : 0 ≤ 1 / g := by positivity
    have h2 : 0 ≤ 2 / g := by positivity
    simp only [pyInt, h1, h2, if_true]
    exact ⟨Int.toNat_of_nonneg (Int.floor_nonneg.mpr h1), Int.toNat_of_nonneg (Int.floor_nonneg.mpr h2)⟩
  · simp [linspace]
  · simp [linspace]
  · intro h
    have := hlast 0 1 _ h
    simpa using this
  · intro h
    have := hlast (-1) 1 _ h
    rw [show (1:ℝ) - -1 = 2 by norm_num] at this
    exact this

/-- Non-vacuity of C39: the default grid has 100 × 200 points. -/
example (rs : RootScalar) : ∃ t, fastSeparatrixTable rs (9 / 10) (1 / 100) = .ok t
    ∧ t.numE = 100 ∧ t.numX = 200 := by
  obtain ⟨t, ht, hn, -⟩ := C39_grid rs (9 / 10) (1 / 100) (by norm_num) (by norm_num)
  have := hn (by norm_num)
  norm_num at this
  exact ⟨t, ht, by exact_mod_cast this.1, by exact_mod_cast this.2⟩

/-! ## C40 -/

/-- **C40.** For every frame `i` of the animation the sample index `j` is inside the sampled arrays, the
tail window `[j0, j)` is inside them too and holds at most `tail_length * 240` points, the frame time is
inside `[lambda0, lambda1]`, consecutive frames are `int(8 speed)` samples apart, and the number of
frames is `⌊points / step⌋`. -/
theorem C40_frames (lambda0 lambda1 speed : ℝ) (tail n : ℤ) (hl : lambda0 ≤ lambda1)
    (hs : 0 ≤ speed) (ht : 0 ≤ tail) (hn : animNumFrames lambda0 lambda1 speed = .ok n) :
    let N := ⌊(lambda1 - lambda0) * 240⌋
    let step := ⌊speed * 8⌋
    n = N / step ∧
    ∀ i, 0 ≤ i → i < n →
      let j := animIndex speed i
      let j0 := animTailStart speed tail i
      0 ≤ j ∧ j < N ∧ 0 ≤ j0 ∧ j0 ≤ j ∧ j - j0 ≤ tail * 240
      ∧ animIndex speed (i + 1) - j = step ∧ 0 < step
      ∧ lambda0 ≤ animTime lambda0 lambda1 j ∧ animTime lambda0 lambda1 j ≤ lambda1 := by
  intro N step
  have hN0 : 0 ≤ (lambda1 - lambda0) * 240 := by nlinarith
  have hS0 : 0 ≤ speed * 8 := by nlinarith
  have hN : animNumPts lambda0 lambda1 = N := by simp [animNumPts, pyInt, hN0, N]
  have hS : animSpeedMultiplier speed = step := by simp [animSpeedMultiplier, pyInt, hS0, step]
  have hNn : 0 ≤ N := Int.floor_nonneg.mpr hN0
  have hSn : 0 ≤ step := Int.floor_nonneg.mpr hS0
  unfold animNumFrames at hn
  rw [hN, hS] at hn
  split_ifs at hn with h0
  have hpos : 0 < step := lt_of_le_of_ne hSn (Ne.symm h0)
  have hq : (0:ℝ) ≤ (N:ℝ) / (step:ℝ) := by
    have : (0:ℝ) ≤ N := by exact_mod_cast hNn
    have : (0:ℝ) ≤ step := by exact_mod_cast hSn
    positivity
  have hn' : n = N / step := by
    rw [← Except.ok.inj hn, pyInt, if_pos hq]
    lift step to ℕ using hSn with k hk
    rw [Int.cast_natCast, Int.floor_div_natCast, Int.floor_intCast]
  refine ⟨hn', fun i hi hin => ?_⟩
  have hj : animIndex speed i = step * i := by rw [animIndex, hS]
  have hjN : step * i < N := by
    have h1 : i + 1 ≤ N / step := by omega
    have h2 : step * (i + 1) ≤ step * (N / step) := mul_le_mul_of_nonneg_left h1 hSn
    have h3 := Int.mul_ediv_self_le (x := N) (k := step) h0
    have : step * (i + 1) = step * i + step := by ring
    omega
  have hj0 : 0 ≤ step * i := mul_nonneg hSn hi
  simp only [animTailStart, animIndex, hS]
  refine ⟨hj0, hjN, le_max_left _ _, ?_, ?_, by ring, hpos, ?_⟩
  · exact max_le hj0 (by nlinarith)
  · have := le_max_right 0 (step * i - tail * 240)
    linarith
  · unfold animTime
    rw [hN]
    exact linspace_mem hl (by omega)

/-- **C40 (violated: slow animations).** A speed below `1/8` makes `animate` divide by zero. -/
theorem C40_slow_speed (lambda0 lambda1 speed : ℝ) (hs : 0 ≤ speed) (hs8 : speed < 1 / 8) :
    animNumFrames lambda0 lambda1 speed = .error .zeroDivision := by
  have hS0 : 0 ≤ speed * 8 := by nlinarith
  unfold animNumFrames animSpeedMultiplier pyInt
  rw [if_pos hS0]
  have : ⌊speed * 8⌋ = 0 := Int.floor_eq_zero_iff.mpr ⟨hS0, by linarith⟩
  rw [if_pos this]

/-- **C40 (alpha window).** After the first frame the number of alpha values equals the number of tail
points; in the first frame the slice `decay[-0:]` is the whole array although the tail is empty. -/
theorem C40_alpha (lambda0 lambda1 speed : ℝ) (tail n i : ℤ) (hl : lambda0 ≤ lambda1)
    (hs : 0 ≤ speed) (ht : 0 < tail) (hn : animNumFrames lambda0 lambda1 speed = .ok n)
    (hi : 0 ≤ i) (hin : i < n) :
    animAlphaLen lambda0 lambda1 speed tail i
      = if i = 0 then ⌊(lambda1 - lambda0) * 240⌋
        else animIndex speed i - animTailStart speed tail i := by
  have h := (C40_frames lambda0 lambda1 speed tail n hl hs ht.le hn).2 i hi hin
  have hN0 : 0 ≤ (lambda1 - lambda0) * 240 := by nlinarith
  have hN : animNumPts lambda0 lambda1 = ⌊(lambda1 - lambda0) * 240⌋ := by
    simp [animNumPts, pyInt, hN0]
  obtain ⟨h1, h2, h3, h4, h5, h6, h7, -⟩ := h
  unfold animAlphaLen negSliceLen
  rw [hN]
  by_cases h0 : i = 0
  · rw [if_pos h0, if_pos]
    have : animIndex speed i = 0 := by rw [h0, animIndex, mul_zero]
    omega
  · rw [if_neg h0, if_neg]
    · exact min_eq_left (by omega)
    · have hip : 0 < i := lt_of_le_of_ne hi (Ne.symm h0)
      have hst : animIndex speed (i + 1) - animIndex speed i = animSpeedMultiplier speed := by
        simp only [animIndex]; ring
      rw [hst] at h6
      have hj : 0 < animIndex speed i := by
        rw [animIndex, h6]; exact mul_pos h7 hip
      have : animTailStart speed tail i < animIndex speed i := by
        unfold animTailStart
        exact max_lt hj (by nlinarith)
      omega

/-- Non-vacuity of C40: the default animation has 300 frames of 8 samples. -/
example : animNumFrames 0 10 1 = .ok 300 := by
  norm_num [animNumFrames, animSpeedMultiplier, animNumPts, pyInt]

end KGP
