import Verif.Model.Plot
import Verif.Props.Plot

/-!
# C55, C56: what `plot` and `animate` draw
-/

namespace KGP

open Classical Real

/-! ### array lemmas -/

lemma foldl_min_le (xs : List ℝ) (x : ℝ) :
    xs.foldl min x ≤ x ∧ (∀ y ∈ xs, xs.foldl min x ≤ y) ∧ (xs.foldl min x = x ∨ xs.foldl min x ∈ xs) := by
  induction xs generalizing x with
  | nil => simp
  | cons z zs ih =>
    obtain ⟨h1, h2, h3⟩ := ih (min x z)
    simp only [List.foldl_cons, List.mem_cons]
    refine ⟨h1.trans (min_le_left _ _), ?_, ?_⟩
    · rintro y (rfl | hy)
      · exact h1.trans (min_le_right _ _)
      · exact h2 y hy
    · rcases h3 with h3 | h3
      · rcases min_choice x z with h | h
        · left; rw [h3, h]
        · right; left; rw [h3, h]
      · right; right; exact h3

lemma foldl_max_ge (xs : List ℝ) (x : ℝ) :
    x ≤ xs.foldl max x ∧ (∀ y ∈ xs, y ≤ xs.foldl max x) ∧ (xs.foldl max x = x ∨ xs.foldl max x ∈ xs) := by
  induction xs generalizing x with
  | nil => simp
  | cons z zs ih =>
    obtain ⟨h1, h2, h3⟩ := ih (max x z)
    simp only [List.foldl_cons, List.mem_cons]
    refine ⟨(le_max_left _ _).trans h1, ?_, ?_⟩
    · rintro y (rfl | hy)
      · exact (le_max_right _ _).trans h1
      · exact h2 y hy
    · rcases h3 with h3 | h3
      · rcases max_choice x z with h | h
        · left; rw [h3, h]
        · right; left; rw [h3, h]
      · right; right; exact h3

lemma npMin_spec {l : List ℝ} (h : l ≠ []) : npMin l ∈ l ∧ ∀ y ∈ l, npMin l ≤ y := by
  cases l with
  | nil => exact absurd rfl h
  | cons x xs =>
    obtain ⟨h1, h2, h3⟩ := foldl_min_le xs x
    simp only [npMin, List.mem_cons]
    refine ⟨h3, ?_⟩
    rintro y (rfl | hy)
    · exact h1
    · exact h2 y hy

lemma npMax_spec {l : List ℝ} (h : l ≠ []) : npMax l ∈ l ∧ ∀ y ∈ l, y ≤ npMax l := by
  cases l with
  | nil => exact absurd rfl h
  | cons x xs =>
    obtain ⟨h1, h2, h3⟩ := foldl_max_ge xs x
    simp only [npMax, List.mem_cons]
    refine ⟨h3, ?_⟩
    rintro y (rfl | hy)
    · exact h1
    · exact h2 y hy

lemma pyIndex_ok {α : Type} {l : List α} {k : ℕ} {v : α} (h : l[k]? = some v) :
    pyIndex l (k : ℤ) = .ok v := by
  simp [pyIndex, h]

lemma pyIndex_neg_one {α : Type} {l : List α} {v : α} (h : l[l.length - 1]? = some v) :
    pyIndex l (-1) = .ok v := by
  have hl : 0 < l.length := by
    by_contra hc
    have : l = [] := List.length_eq_zero_iff.mp (by omega)
    subst this; simp at h
  have e : ((l.length : ℤ) + -1).toNat = l.length - 1 := by omega
  have e2 : (1:ℤ) ≤ l.length := by omega
  simp only [pyIndex, show ¬ (0:ℤ) ≤ -1 by norm_num, if_false, neg_neg, e2, if_true, e, h]

lemma sliceBound_nat {n k : ℕ} (h : k ≤ n) : sliceBound n (k : ℤ) = k := by
  simp [sliceBound, h]

lemma pySlice_length {α : Type} (l : List α) {j0 j : ℕ} (h1 : j ≤ l.length) (h0 : j0 ≤ j) :
    (pySlice l j0 j).length = j - j0 := by
  simp only [pySlice, sliceBound_nat h1, sliceBound_nat (h0.trans h1), List.length_drop, List.length_take]
  omega

lemma pySlice_get {α : Type} (l : List α) {j0 j k : ℕ} (h1 : j ≤ l.length) (h0 : j0 ≤ j) (hk : k < j - j0) :
    (pySlice l j0 j)[k]? = l[j0 + k]? := by
  simp only [pySlice, sliceBound_nat h1, sliceBound_nat (h0.trans h1), List.getElem?_drop, List.getElem?_take]
  rw [if_pos (by omega)]

lemma pySliceFrom_length {α : Type} (l : List α) {k : ℕ} (h0 : 0 < k) (h1 : k ≤ l.length) :
    (pySliceFrom l (-(k:ℤ))).length = k := by
  have : ¬ (0:ℤ) ≤ -(k:ℤ) := by omega
  simp only [pySliceFrom, sliceBound, this, if_false, List.length_drop]
  omega

lemma pySliceFrom_get {α : Type} (l : List α) {k i : ℕ} (h0 : 0 < k) (h1 : k ≤ l.length) :
    (pySliceFrom l (-(k:ℤ)))[i]? = l[l.length - k + i]? := by
  have : ¬ (0:ℤ) ≤ -(k:ℤ) := by omega
  simp only [pySliceFrom, sliceBound, this, if_false, List.getElem?_drop]
  congr 1
  omega

lemma isVisible_length (a el az : ℝ) (pts : List Pt) : (isVisible a pts el az).length = pts.length := by
  simp [isVisible]

lemma maskHidden_length (a el az : ℝ) (pts : List Pt) : (maskHidden a pts el az).length = pts.length := by
  simp [maskHidden, isVisible_length]

lemma consecutive_length (l : List MaskedPt) : (consecutive l).length = l.length - 1 := by
  simp [consecutive]

lemma consecutive_get {l : List MaskedPt} {k : ℕ} {p q : MaskedPt} (h : l[k]? = some p) (h' : l[k + 1]? = some q) :
    (consecutive l)[k]? = some (p, q) := by
  obtain ⟨h1, h2⟩ := List.getElem?_eq_some_iff.mp h
  obtain ⟨h3, h4⟩ := List.getElem?_eq_some_iff.mp h'
  simp only [consecutive, List.zip, List.getElem?_zipWith, List.getElem?_dropLast, List.getElem?_tail, h, h']
  simp [show k < l.length - 1 by omega]

/-- How one point of a masked list is drawn: its position, and whether it is hidden. -/
lemma maskHidden_get (a el az : ℝ) {pts : List Pt} {k : ℕ} {p : Pt} (h : pts[k]? = some p) :
    ∃ m, (maskHidden a pts el az)[k]? = some m ∧ m.x = p.x ∧ m.y = p.y ∧ (m.z = some p.z ∨ m.z = none)
      ∧ ((1 + √(1 - a ^ 2)) ^ 2 < p.dot p →
          (m.z = some p.z ↔ Spec.Visible (1 + √(1 - a ^ 2)) (viewNormal el az) p))
      ∧ ((∃ p' ∈ pts, (1 + √(1 - a ^ 2)) ^ 2 < p'.dot p') → 0 ≤ p.dot (viewNormal el az) →
          m.z = some p.z) := by
  obtain ⟨hk, rfl⟩ := List.getElem?_eq_some_iff.mp h
  have hv : k < (isVisible a pts el az).length := by rwa [isVisible_length]
  refine ⟨⟨pts[k].x, pts[k].y, if (isVisible a pts el az)[k] then some pts[k].z else none⟩, ?_, rfl, rfl, ?_, ?_, ?_⟩
  · simp only [maskHidden, List.getElem?_zipWith, List.getElem?_eq_getElem hk, List.getElem?_eq_getElem hv]
  · by_cases hh : (isVisible a pts el az)[k]
    · left; simp [hh]
    · right; simp [hh]
  · intro ho
    obtain ⟨hlt, hiff⟩ := C29_outside a el az pts k hk ho
    rw [← hiff]
    by_cases hh : (isVisible a pts el az)[k] <;> simp [hh]
  · rintro ⟨p', hp', ho⟩ hf
    have : (isVisible a pts el az)[k] := by
      have hh : (0:ℝ) ≤ 1 + √(1 - a ^ 2) := by positivity
      simp only [isVisible, List.getElem_map, frobenius, lt_sqrt_iff hh]
      refine ⟨.inl hf, lt_of_lt_of_le ho ?_⟩
      apply List.single_le_sum
      · intro x hx
        obtain ⟨p, -, rfl⟩ := List.mem_map.mp hx
        exact p.dot_self_nonneg
      · exact List.mem_map.mpr ⟨p', hp', rfl⟩
    simp [this]

lemma npLinspace_ok {lo hi : ℝ} {N : ℕ} :
    npLinspace lo hi N = .ok ((List.range N).map fun i => linspace lo hi N i) := by
  simp [npLinspace]

lemma linspace_eq {lo hi : ℝ} {N : ℕ} (hN : 2 ≤ N) (k : ℕ) :
    linspace lo hi N k = lo + (hi - lo) * k / ((N : ℝ) - 1) := by
  rw [linspace, if_neg (by omega)]

lemma linspace_zero (lo hi : ℝ) (N : ℕ) : linspace lo hi N 0 = lo := by
  unfold linspace; split_ifs <;> simp

lemma linspace_reflect {lo hi : ℝ} {N k : ℕ} (hN : 2 ≤ N) (hk : k < N) :
    linspace lo hi N (N - 1 - k) - linspace lo hi N 0 = hi - linspace lo hi N k := by
  have h2 : (N:ℝ) - 1 ≠ 0 := by
    have : (2:ℝ) ≤ N := by exact_mod_cast hN
    linarith
  rw [linspace_eq hN, linspace_eq hN, linspace_eq hN, Nat.cast_sub (by omega), Nat.cast_sub (by omega)]
  push_cast
  field_simp
  ring

lemma linspace_last {lo hi : ℝ} {N : ℕ} (hN : 2 ≤ N) : linspace lo hi N (N - 1) = hi := by
  have := linspace_reflect (lo := lo) (hi := hi) hN (k := 0) (by omega)
  rw [Nat.sub_zero] at this
  linarith

/-! ## C55 -/

/-- The opacity/width profile: a curve point of a given age fades like `exp(-age / tau)`; `none` (`tau = inf`)
means no fading. -/
noncomputable def Spec.fade (tau : Option ℝ) (age : ℝ) : ℝ :=
  match tau with
  | none => 1
  | some tau => exp (-age / tau)

/-- The `k`-th of `N ≥ 2` equally spaced instants from `l0` to `l1`. -/
noncomputable def Spec.instant (l0 l1 : ℝ) (N k : ℕ) : ℝ := l0 + (l1 - l0) * k / ((N : ℝ) - 1)

/-- `m` is the picture of the space point `p`: at its place, and hidden exactly if it is not visible (for
points outside the horizon). -/
def Spec.Pictures (horizon : ℝ) (n : Pt) (p : Pt) (m : MaskedPt) : Prop :=
  m.x = p.x ∧ m.y = p.y ∧ (m.z = some p.z ∨ m.z = none)
    ∧ (horizon ^ 2 < p.dot p → (m.z = some p.z ↔ Spec.Visible horizon n p))

/-- `[lo, hi]` is the range of the values of `f` on a list of points. -/
def Spec.IsRange (f : Pt → ℝ) (pts : List Pt) (lim : ℝ × ℝ) : Prop :=
  (∀ p ∈ pts, lim.1 ≤ f p ∧ f p ≤ lim.2) ∧ (∃ p ∈ pts, f p = lim.1) ∧ ∃ p ∈ pts, f p = lim.2

lemma isRange_of (f : Pt → ℝ) {pts : List Pt} (h : pts ≠ []) :
    Spec.IsRange f pts (npMin (pts.map f), npMax (pts.map f)) := by
  have hne : pts.map f ≠ [] := by simpa using h
  obtain ⟨h1, h2⟩ := npMin_spec hne
  obtain ⟨h3, h4⟩ := npMax_spec hne
  obtain ⟨p, hp, e⟩ := List.mem_map.mp h1
  obtain ⟨p', hp', e'⟩ := List.mem_map.mp h3
  exact ⟨fun p hp => ⟨h2 _ (List.mem_map.mpr ⟨p, hp, rfl⟩), h4 _ (List.mem_map.mpr ⟨p, hp, rfl⟩)⟩,
    ⟨p, hp, e⟩, ⟨p', hp', e'⟩⟩

lemma horizonSphere_mem (a : ℝ) : ∀ p ∈ horizonSphere a, p.dot p = (1 + √(1 - a ^ 2)) ^ 2 := by
  intro p hp
  simp only [horizonSphere, List.mem_flatMap, List.mem_map] at hp
  obtain ⟨i, -, j, -, rfl⟩ := hp
  simp only [Pt.dot]
  have h1 := sin_sq_add_cos_sq (linspace 0 (2 * π) 50 i)
  have h2 := sin_sq_add_cos_sq (linspace 0 π 25 j)
  generalize cos (linspace 0 (2 * π) 50 i) = c at *
  generalize sin (linspace 0 (2 * π) 50 i) = s at *
  generalize cos (linspace 0 π 25 j) = c' at *
  generalize sin (linspace 0 π 25 j) = s' at *
  linear_combination (1 + √(1 - a ^ 2)) ^ 2 * (h2 + s' ^ 2 * h1)

lemma horizonSphere_poles (a : ℝ) : (⟨0, 0, 1 + √(1 - a ^ 2)⟩ : Pt) ∈ horizonSphere a
    ∧ (⟨0, 0, -(1 + √(1 - a ^ 2))⟩ : Pt) ∈ horizonSphere a := by
  simp only [horizonSphere, List.mem_flatMap, List.mem_map, List.mem_range]
  refine ⟨⟨0, by norm_num, 0, by norm_num, ?_⟩, ⟨0, by norm_num, 24, by norm_num, ?_⟩⟩
  · rw [linspace_zero, linspace_zero]; simp
  · rw [linspace_zero, show linspace 0 π 25 24 = π from linspace_last (N := 25) (by norm_num)]; simp

/-- **C55 (`plot`).** Let `plot` be called for the Mino time range `[lambda0, lambda1]` with a density that gives
`N = ⌊(lambda1 - lambda0) * density⌋ ≥ 2` points, and let `T` be the trajectory of the object for the phases in
force.  The curve consists of the positions at `N` equally spaced instants from `lambda0` to `lambda1`, consecutive
points joined by segments; each point is drawn in its place, and is masked exactly if it is not visible from
the camera (for points outside the horizon); the width at an instant is `0.1 + lw` times the fading for its age at
`lambda1`; the small body is drawn at `lambda1`; the black hole is a set of points of radius `r₊`; and the axis limits
are the range of the coordinates of curve and black hole. -/
theorem C55_plot (rs : RootScalar) (o : OrbitObj) (lambda0 lambda1 el az lw density : ℝ) (q : Option Phases)
    (tau : Option ℝ) (T : Traj) (N : ℕ) (hT : o.trajectoryNat rs (some (q.getD o.phases)) = .ok T)
    (hd : 0 ≤ (lambda1 - lambda0) * density) (hN : (N : ℤ) = ⌊(lambda1 - lambda0) * density⌋) (h2 : 2 ≤ N) :
    ∃ D, o.plot rs lambda0 lambda1 el az q lw tau density = .ok D
      ∧ D.points.length = N ∧ D.segments.length = N - 1 ∧ D.widths.length = N ∧ D.view = (el, az)
      ∧ (∀ k < N, ∃ m, D.points[k]? = some m
          ∧ Spec.Pictures (1 + √(1 - o.a ^ 2)) (viewNormal el az)
              (cartesian T (Spec.instant lambda0 lambda1 N k)) m
          ∧ D.widths[k]? = some (0.1 + lw * Spec.fade tau (lambda1 - Spec.instant lambda0 lambda1 N k)))
      ∧ (∀ k m m', D.points[k]? = some m → D.points[k + 1]? = some m' → D.segments[k]? = some (m, m'))
      ∧ D.body = cartesian T lambda1
      ∧ (∀ p ∈ D.sphere, p.dot p = (1 + √(1 - o.a ^ 2)) ^ 2)
      ∧ ∃ curve : List Pt, curve.length = N
          ∧ (∀ k < N, curve[k]? = some (cartesian T (Spec.instant lambda0 lambda1 N k)))
          ∧ Spec.IsRange Pt.x (curve ++ D.sphere) D.xlim ∧ Spec.IsRange Pt.y (curve ++ D.sphere) D.ylim
          ∧ Spec.IsRange Pt.z (curve ++ D.sphere) D.zlim := by
  have hpy : pyInt ((lambda1 - lambda0) * density) = (N : ℤ) := by rw [pyInt, if_pos hd, hN]
  have hfade : ∀ s, expDecay tau s = Spec.fade tau s := fun s => by cases tau <;> rfl
  obtain ⟨times, htimes⟩ : ∃ l, l = (List.range N).map fun i => linspace lambda0 lambda1 N i := ⟨_, rfl⟩
  have hlen : times.length = N := by rw [htimes]; simp
  have hget : ∀ k < N, times[k]? = some (Spec.instant lambda0 lambda1 N k) := by
    intro k hk
    rw [htimes, List.getElem?_map, List.getElem?_range hk, Option.map_some, linspace_eq h2]
    rfl
  have hi0 : Spec.instant lambda0 lambda1 N 0 = lambda0 := by simp [Spec.instant]
  have hiN : Spec.instant lambda0 lambda1 N (N - 1) = lambda1 := by
    rw [Spec.instant, ← linspace_eq h2, linspace_last h2]
  have ht0 : pyIndex times 0 = .ok lambda0 := by
    have := pyIndex_ok (l := times) (k := 0) (by rw [hget 0 (by omega), hi0])
    exact_mod_cast this
  have hcurve : ∀ k < N, (times.map (cartesian T))[k]? = some (cartesian T (Spec.instant lambda0 lambda1 N k)) := by
    intro k hk
    rw [List.getElem?_map, hget k hk, Option.map_some]
  have hbody : pyIndex (times.map (cartesian T)) (-1) = .ok (cartesian T lambda1) := by
    apply pyIndex_neg_one
    rw [List.length_map, hlen, hcurve _ (by omega), hiN]
  have hne : times.map (cartesian T) ++ horizonSphere o.a ≠ [] := by
    intro h
    have := congrArg List.length h
    rw [List.length_append, List.length_map, hlen, List.length_nil] at this
    omega
  have hl : npLinspace lambda0 lambda1 (pyInt ((lambda1 - lambda0) * density)) = .ok times := by
    rw [hpy, npLinspace_ok, htimes]
  unfold OrbitObj.plot plotTraj
  simp only [hl, hT, ht0, hbody, bind_ok]
  refine ⟨_, rfl, ?_, ?_, ?_, rfl, ?_, ?_, rfl, horizonSphere_mem o.a, times.map (cartesian T), ?_, hcurve,
    isRange_of _ hne, isRange_of _ hne, isRange_of _ hne⟩
  · rw [maskHidden_length, List.length_map, hlen]
  · rw [consecutive_length, maskHidden_length, List.length_map, hlen]
  · rw [List.length_reverse, List.length_map, hlen]
  · intro k hk
    obtain ⟨m, h1, h2', h3, h4, h5, -⟩ := maskHidden_get o.a el az (hcurve k hk)
    refine ⟨m, h1, ⟨h2', h3, h4, h5⟩, ?_⟩
    rw [List.getElem?_reverse (by rw [List.length_map, hlen]; exact hk), List.getElem?_map, List.length_map, hlen,
      hget _ (by omega), Option.map_some, hfade]
    have := linspace_reflect (lo := lambda0) (hi := lambda1) h2 hk
    rw [linspace_zero, linspace_eq h2, linspace_eq h2] at this
    unfold Spec.instant
    rw [this]
  · exact fun k m m' h h' => consecutive_get h h'
  · rw [List.length_map, hlen]

/-- **C55 (line widths).** With `lw ≥ 0` and a positive `tau` the widths lie between `0.1` and `0.1 + lw`, are larger the
closer the instant is to the end, and the end of the curve has the full width. -/
theorem C55_widths (lw : ℝ) (tau : Option ℝ) (hlw : 0 ≤ lw) (htau : ∀ t, tau = some t → 0 < t) :
    (∀ age, 0 ≤ age → 0.1 ≤ 0.1 + lw * Spec.fade tau age ∧ 0.1 + lw * Spec.fade tau age ≤ 0.1 + lw)
    ∧ (∀ age age', age ≤ age' → lw * Spec.fade tau age' ≤ lw * Spec.fade tau age)
    ∧ 0.1 + lw * Spec.fade tau 0 = 0.1 + lw := by
  cases tau with
  | none => exact ⟨fun _ _ => by simp [Spec.fade, hlw], fun _ _ _ => by simp [Spec.fade], by simp [Spec.fade]⟩
  | some t =>
    have ht := htau t rfl
    refine ⟨fun age h => ?_, fun age age' h => ?_, by simp [Spec.fade]⟩
    · have h1 : 0 < exp (-age / t) := exp_pos _
      have h2 : exp (-age / t) ≤ 1 := by
        rw [exp_le_one_iff]
        exact div_nonpos_of_nonpos_of_nonneg (by linarith) ht.le
      simp only [Spec.fade]
      constructor <;> nlinarith
    · simp only [Spec.fade]
      apply mul_le_mul_of_nonneg_left _ hlw
      rw [exp_le_exp]
      exact div_le_div_of_nonneg_right (by linarith) ht.le

/-- **C55 (degenerate ranges).** A time range that yields a negative number of points raises `ValueError`; one that
yields no point (for instance `lambda1 = lambda0`) raises `IndexError`. -/
theorem C55_degenerate (rs : RootScalar) (o : OrbitObj) (lambda0 lambda1 el az lw density : ℝ) (q : Option Phases)
    (tau : Option ℝ) (T : Traj) (hT : o.trajectoryNat rs (some (q.getD o.phases)) = .ok T) :
    ((lambda1 - lambda0) * density ≤ -1 →
      (o.plot rs lambda0 lambda1 el az q lw tau density).IsValueError)
    ∧ (|(lambda1 - lambda0) * density| < 1 →
      o.plot rs lambda0 lambda1 el az q lw tau density = .error .indexError) := by
  constructor
  · intro h
    have : pyInt ((lambda1 - lambda0) * density) < 0 := by
      rw [pyInt, if_neg (by linarith)]
      have : ⌈(lambda1 - lambda0) * density⌉ ≤ -1 := Int.ceil_le.mpr (by push_cast; exact h)
      omega
    refine ⟨"Number of samples must be non-negative.", ?_⟩
    unfold OrbitObj.plot npLinspace
    simp only [this, if_true]
    rfl
  · intro h
    rw [abs_lt] at h
    have : pyInt ((lambda1 - lambda0) * density) = 0 := by
      unfold pyInt
      split_ifs with h0
      · exact Int.floor_eq_zero_iff.mpr ⟨h0, h.2⟩
      · rw [Int.ceil_eq_zero_iff]
        exact ⟨h.1, by linarith⟩
    unfold OrbitObj.plot npLinspace plotTraj
    simp only [this, lt_irrefl, if_false, hT, bind_ok, Int.toNat_zero, List.range_zero, List.map_nil]
    simp [pyIndex]
    rfl

/-- **C55 (points inside the horizon are drawn).** As for `is_visible` (C29): if any sampled instant lies outside the
horizon, every sampled point in front of the viewing plane is drawn, also those inside the horizon, which are not
visible. -/
theorem C55_inside_violated (rs : RootScalar) (o : OrbitObj) (lambda0 lambda1 el az lw density : ℝ)
    (q : Option Phases) (tau : Option ℝ) (T : Traj) (N k k' : ℕ)
    (hT : o.trajectoryNat rs (some (q.getD o.phases)) = .ok T)
    (hd : 0 ≤ (lambda1 - lambda0) * density) (hN : (N : ℤ) = ⌊(lambda1 - lambda0) * density⌋) (h2 : 2 ≤ N)
    (hk : k < N) (hk' : k' < N)
    (hin : |T.r (Spec.instant lambda0 lambda1 N k)| < 1 + √(1 - o.a ^ 2))
    (hout : 1 + √(1 - o.a ^ 2) < T.r (Spec.instant lambda0 lambda1 N k'))
    (hfront : 0 ≤ (cartesian T (Spec.instant lambda0 lambda1 N k)).dot (viewNormal el az)) :
    ∃ D m, o.plot rs lambda0 lambda1 el az q lw tau density = .ok D ∧ D.points[k]? = some m
      ∧ m.z = some (cartesian T (Spec.instant lambda0 lambda1 N k)).z
      ∧ ¬ Spec.Visible (1 + √(1 - o.a ^ 2)) (viewNormal el az)
          (cartesian T (Spec.instant lambda0 lambda1 N k)) := by
  have hpy : pyInt ((lambda1 - lambda0) * density) = (N : ℤ) := by rw [pyInt, if_pos hd, hN]
  obtain ⟨times, htimes⟩ : ∃ l, l = (List.range N).map fun i => linspace lambda0 lambda1 N i := ⟨_, rfl⟩
  have hlen : times.length = N := by rw [htimes]; simp
  have hget : ∀ k < N, times[k]? = some (Spec.instant lambda0 lambda1 N k) := by
    intro k hk
    rw [htimes, List.getElem?_map, List.getElem?_range hk, Option.map_some, linspace_eq h2]
    rfl
  have hl : npLinspace lambda0 lambda1 (pyInt ((lambda1 - lambda0) * density)) = .ok times := by
    rw [hpy, npLinspace_ok, htimes]
  have hcurve : ∀ k < N, (times.map (cartesian T))[k]? = some (cartesian T (Spec.instant lambda0 lambda1 N k)) := by
    intro k hk
    rw [List.getElem?_map, hget k hk, Option.map_some]
  obtain ⟨D, hD, -⟩ := C55_plot rs o lambda0 lambda1 el az lw density q tau T N hT hd hN h2
  have hpts : D.points = maskHidden o.a (times.map (cartesian T)) el az := by
    have := hD
    unfold OrbitObj.plot plotTraj at this
    simp only [hl, hT, bind_ok] at this
    obtain ⟨t0, ht0, this⟩ := bind_eq_ok.mp this
    obtain ⟨b0, hb0, this⟩ := bind_eq_ok.mp this
    rw [← Except.ok.inj this]
  obtain ⟨m, h1, -, -, -, -, h6⟩ := maskHidden_get o.a el az (hcurve k hk)
  refine ⟨D, m, hD, by rw [hpts, h1], h6 ⟨_, List.mem_of_getElem? (hcurve k' hk'), ?_⟩ hfront, ?_⟩
  · rw [C29_cartesian]
    have : (0:ℝ) < 1 + √(1 - o.a ^ 2) := by positivity
    nlinarith
  · rintro ⟨h, -⟩
    rw [C29_cartesian, ← sq_abs (T.r _)] at h
    have := abs_nonneg (T.r (Spec.instant lambda0 lambda1 N k))
    nlinarith

/-! ## C56 -/

/-- `v` is the value of an optional function of time, or a default. -/
def Spec.IsPanned (pan : Option (ℝ → ℝ)) (default t v : ℝ) : Prop :=
  (pan = none → v = default) ∧ ∀ f, pan = some f → v = f t

lemma isPanned_match (pan : Option (ℝ → ℝ)) (d t : ℝ) :
    Spec.IsPanned pan d t (match pan with | some f => f t | none => d) := by
  cases pan with
  | none => exact ⟨fun _ => rfl, fun f h => by cases h⟩
  | some g => exact ⟨fun h => (Option.some_ne_none g h).elim, fun f h => by cases h; rfl⟩

/-- `L` is the largest absolute coordinate of a list of points. -/
def Spec.IsExtent (pts : List Pt) (L : ℝ) : Prop :=
  (∀ p ∈ pts, |p.x| ≤ L ∧ |p.y| ≤ L ∧ |p.z| ≤ L)
    ∧ ∃ p ∈ pts, |p.x| = L ∨ |p.y| = L ∨ |p.z| = L

lemma isExtent_of {pts : List Pt} (h : pts ≠ []) :
    Spec.IsExtent pts (absMaxByAbs [npMin (pts.map Pt.x), npMin (pts.map Pt.y), npMin (pts.map Pt.z),
      npMax (pts.map Pt.x), npMax (pts.map Pt.y), npMax (pts.map Pt.z)]) := by
  obtain ⟨x1, ⟨px, hpx, ex⟩, px', hpx', ex'⟩ := isRange_of Pt.x h
  obtain ⟨y1, ⟨py, hpy, ey⟩, py', hpy', ey'⟩ := isRange_of Pt.y h
  obtain ⟨z1, ⟨pz, hpz, ez⟩, pz', hpz', ez'⟩ := isRange_of Pt.z h
  simp only at x1 y1 z1 ex ex' ey ey' ez ez'
  unfold absMaxByAbs
  obtain ⟨hm, hle⟩ := npMax_spec (l := List.map (fun x => |x|)
    [npMin (pts.map Pt.x), npMin (pts.map Pt.y), npMin (pts.map Pt.z),
      npMax (pts.map Pt.x), npMax (pts.map Pt.y), npMax (pts.map Pt.z)]) (by simp)
  simp only [List.map_cons, List.map_nil, List.mem_cons, List.not_mem_nil, or_false,
    forall_eq_or_imp, forall_eq] at hm hle
  simp only [List.map_cons, List.map_nil]
  generalize npMax [|npMin (pts.map Pt.x)|, |npMin (pts.map Pt.y)|, |npMin (pts.map Pt.z)|,
      |npMax (pts.map Pt.x)|, |npMax (pts.map Pt.y)|, |npMax (pts.map Pt.z)|] = M at *
  obtain ⟨l1, l2, l3, l4, l5, l6⟩ := hle
  have bound : ∀ lo v hi : ℝ, lo ≤ v → v ≤ hi → |lo| ≤ M → |hi| ≤ M → |v| ≤ M := by
    intro lo v hi h1 h2 h3 h4
    rw [abs_le] at *
    exact ⟨h3.1.trans h1, h2.trans h4.2⟩
  refine ⟨fun p hp => ⟨bound _ _ _ (x1 p hp).1 (x1 p hp).2 l1 l4, bound _ _ _ (y1 p hp).1 (y1 p hp).2 l2 l5,
    bound _ _ _ (z1 p hp).1 (z1 p hp).2 l3 l6⟩, ?_⟩
  rcases hm with h | h | h | h | h | h
  · exact ⟨px, hpx, .inl (by rw [ex, h])⟩
  · exact ⟨py, hpy, .inr (.inl (by rw [ey, h]))⟩
  · exact ⟨pz, hpz, .inr (.inr (by rw [ez, h]))⟩
  · exact ⟨px', hpx', .inl (by rw [ex', h])⟩
  · exact ⟨py', hpy', .inr (.inl (by rw [ey', h]))⟩
  · exact ⟨pz', hpz', .inr (.inr (by rw [ez', h]))⟩

/-- What `animate` prepares before the first frame. -/
lemma animSetup_spec (rs : RootScalar) (o : OrbitObj) (lambda0 lambda1 speed : ℝ) (q : Option Phases)
    (tau : Option ℝ) (T : Traj) (N step : ℕ) (hT : o.trajectoryNat rs q = .ok T) (hl : lambda0 ≤ lambda1)
    (hs : 0 ≤ speed) (hN : (N : ℤ) = ⌊(lambda1 - lambda0) * 240⌋) (hstep : (step : ℤ) = ⌊speed * 8⌋)
    (h2 : 2 ≤ N) (h1 : 1 ≤ step) :
    ∃ s, o.animSetup rs lambda0 lambda1 q tau speed = .ok s ∧ s.numFrames.toNat = N / step ∧ s.step = step
      ∧ s.times.length = N ∧ (∀ k < N, s.times[k]? = some (Spec.instant lambda0 lambda1 N k))
      ∧ s.trajectory = s.times.map (cartesian T)
      ∧ s.decay.length = N
      ∧ (∀ k < N, s.decay[k]? = some (0.1 + 0.9 * Spec.fade tau (lambda1 - Spec.instant lambda0 lambda1 N k)))
      ∧ s.sphere = horizonSphere o.a
      ∧ Spec.IsExtent (s.trajectory ++ s.sphere) s.limit := by
  have hpy : animNumPts lambda0 lambda1 = (N : ℤ) := by
    rw [animNumPts, pyInt, if_pos (by nlinarith), hN]
  have hst : animSpeedMultiplier speed = (step : ℤ) := by
    rw [animSpeedMultiplier, pyInt, if_pos (by nlinarith), hstep]
  have hfade : ∀ s, expDecay tau s = Spec.fade tau s := fun s => by cases tau <;> rfl
  obtain ⟨times, htimes⟩ : ∃ l, l = (List.range N).map fun i => linspace lambda0 lambda1 N i := ⟨_, rfl⟩
  have hlen : times.length = N := by rw [htimes]; simp
  have hget : ∀ k < N, times[k]? = some (Spec.instant lambda0 lambda1 N k) := by
    intro k hk
    rw [htimes, List.getElem?_map, List.getElem?_range hk, Option.map_some, linspace_eq h2]
    rfl
  have hi0 : Spec.instant lambda0 lambda1 N 0 = lambda0 := by simp [Spec.instant]
  have ht0 : pyIndex times 0 = .ok lambda0 := by
    have := pyIndex_ok (l := times) (k := 0) (by rw [hget 0 (by omega), hi0])
    exact_mod_cast this
  have hne : times.map (cartesian T) ++ horizonSphere o.a ≠ [] := by
    intro h
    have := congrArg List.length h
    rw [List.length_append, List.length_map, hlen, List.length_nil] at this
    omega
  have hlin : npLinspace lambda0 lambda1 (N : ℤ) = .ok times := by rw [npLinspace_ok, htimes]
  have hfr : animNumFrames lambda0 lambda1 speed = .ok ((N / step : ℕ) : ℤ) := by
    unfold animNumFrames
    rw [hpy, hst, if_neg (by omega), pyInt, if_pos (by positivity)]
    congr 1
    rw [Int.cast_natCast, Int.cast_natCast, Int.floor_div_natCast, Int.floor_natCast]
    simp
  unfold OrbitObj.animSetup
  simp only [hpy, hlin, hT, ht0, hfr, bind_ok]
  refine ⟨_, rfl, Int.toNat_natCast _, hst, hlen, hget, rfl, ?_, ?_, rfl, isExtent_of hne⟩
  · rw [List.length_reverse, List.length_map, hlen]
  · intro k hk
    rw [List.getElem?_reverse (by rw [List.length_map, hlen]; exact hk), List.getElem?_map, List.length_map, hlen,
      hget _ (by omega), Option.map_some, hfade]
    have := linspace_reflect (lo := lambda0) (hi := lambda1) h2 hk
    rw [linspace_zero, linspace_eq h2, linspace_eq h2] at this
    unfold Spec.instant
    rw [this]

lemma instant_sub (l0 l1 : ℝ) (N j k : ℕ) : Spec.instant l0 l1 N j - Spec.instant l0 l1 N k
    = (l1 - l0) * ((j:ℝ) - k) / ((N:ℝ) - 1) := by
  unfold Spec.instant; ring

/-- **C56 (`animate`).** Let the time range give `N = ⌊240 (lambda1 - lambda0)⌋ ≥ 2` samples, the speed a step of
`step = ⌊8 speed⌋ ≥ 1` samples per frame, and let `tail_length` be a positive integer.  Then `animate` draws `⌊N / step⌋`
frames.  With `j = step * i`, frame `i` shows the small body at the `j`-th of `N` equally spaced instants of
`[lambda0, lambda1]`; camera angles, roll and axis limits are the given ones, or the given functions of that instant;
the tail consists of the positions at the up to `240 * tail_length` preceding instants, each drawn in its place and masked
exactly if it is not visible from the camera of this frame (for points outside the horizon), consecutive points joined;
the transparency of a tail point depends only on how long before the newest tail point it was passed
(the newest one is opaque); the component plots show all earlier instants.  The default axis limits contain all sampled
positions and the black hole and are the tightest symmetric ones. -/
theorem C56_animate (rs : RootScalar) (o : OrbitObj) (lambda0 lambda1 speed : ℝ) (cam : Camera)
    (q : Option Phases) (tau : Option ℝ) (T : Traj) (N step tail : ℕ) (hT : o.trajectoryNat rs q = .ok T)
    (hl : lambda0 ≤ lambda1) (hs : 0 ≤ speed) (hN : (N : ℤ) = ⌊(lambda1 - lambda0) * 240⌋)
    (hstep : (step : ℤ) = ⌊speed * 8⌋) (h2 : 2 ≤ N) (h1 : 1 ≤ step) (ht : 1 ≤ tail) :
    ∃ s frames, o.animate rs lambda0 lambda1 cam q tau (.int tail) speed = .ok (s, frames)
      ∧ frames.length = N / step
      ∧ (∃ curve : List Pt, curve.length = N
          ∧ (∀ k < N, curve[k]? = some (cartesian T (Spec.instant lambda0 lambda1 N k)))
          ∧ Spec.IsExtent (curve ++ s.sphere) s.limit)
      ∧ (∀ p ∈ s.sphere, p.dot p = (1 + √(1 - o.a ^ 2)) ^ 2)
      ∧ ∀ i F, frames[i]? = some F →
        let j := step * i
        let j0 := j - 240 * tail
        let now := Spec.instant lambda0 lambda1 N j
        j < N ∧ F.body = cartesian T now
        ∧ Spec.IsPanned cam.elevationPan cam.elevation now F.elevation
        ∧ Spec.IsPanned cam.azimuthalPan cam.azimuth now F.azimuth
        ∧ Spec.IsPanned cam.roll 0 now F.roll
        ∧ Spec.IsPanned cam.axisLimit s.limit now F.limit
        ∧ F.points.length = j - j0
        ∧ (∀ k < j - j0, ∃ m, F.points[k]? = some m
            ∧ Spec.Pictures (1 + √(1 - o.a ^ 2)) (viewNormal F.elevation F.azimuth)
                (cartesian T (Spec.instant lambda0 lambda1 N (j0 + k))) m)
        ∧ (∀ k m m', F.points[k]? = some m → F.points[k + 1]? = some m' → F.segments[k]? = some (m, m'))
        ∧ F.segments.length = j - j0 - 1
        ∧ (0 < i → F.alphas.length = j - j0 ∧ ∀ k < j - j0, F.alphas[k]? = some (0.1 + 0.9 * Spec.fade tau
            (Spec.instant lambda0 lambda1 N (j - 1) - Spec.instant lambda0 lambda1 N (j0 + k))))
        ∧ F.history.length = j
        ∧ (∀ k < j, F.history[k]? = some (Spec.instant lambda0 lambda1 N k)) := by
  obtain ⟨s, hset, hnf, hsst, htl, htg, htr, hdl, hdg, hsph, hext⟩ :=
    animSetup_spec rs o lambda0 lambda1 speed q tau T N step hT hl hs hN hstep h2 h1
  have hcurve : ∀ k < N, s.trajectory[k]? = some (cartesian T (Spec.instant lambda0 lambda1 N k)) := by
    intro k hk
    rw [htr, List.getElem?_map, htg k hk, Option.map_some]
  have hcl : s.trajectory.length = N := by rw [htr, List.length_map, htl]
  -- one frame
  have frame : ∀ i : ℕ, step * i < N → ∃ el az roll lim, drawFrame o.a s cam (.int tail) i = .ok
      { elevation := el, azimuth := az, roll := roll, limit := lim
        points := maskHidden o.a (pySlice s.trajectory ((step * i - 240 * tail : ℕ) : ℤ) ((step * i : ℕ) : ℤ)) el az
        segments := consecutive (maskHidden o.a
          (pySlice s.trajectory ((step * i - 240 * tail : ℕ) : ℤ) ((step * i : ℕ) : ℤ)) el az)
        alphas := pySliceFrom s.decay (-((step * i - (step * i - 240 * tail) : ℕ) : ℤ))
        body := cartesian T (Spec.instant lambda0 lambda1 N (step * i))
        history := pySlice s.times ((0:ℕ):ℤ) ((step * i : ℕ) : ℤ) }
      ∧ Spec.IsPanned cam.elevationPan cam.elevation (Spec.instant lambda0 lambda1 N (step * i)) el
      ∧ Spec.IsPanned cam.azimuthalPan cam.azimuth (Spec.instant lambda0 lambda1 N (step * i)) az
      ∧ Spec.IsPanned cam.roll 0 (Spec.instant lambda0 lambda1 N (step * i)) roll
      ∧ Spec.IsPanned cam.axisLimit s.limit (Spec.instant lambda0 lambda1 N (step * i)) lim := by
    intro i hj
    have e1 : s.step * (i : ℤ) = ((step * i : ℕ) : ℤ) := by rw [hsst]; push_cast; ring
    have e2 : max 0 (((step * i : ℕ) : ℤ) - (tail : ℤ) * 240) = ((step * i - 240 * tail : ℕ) : ℤ) := by
      generalize step * i = j
      omega
    have e3 : -(((step * i : ℕ) : ℤ) - ((step * i - 240 * tail : ℕ) : ℤ))
        = -((step * i - (step * i - 240 * tail) : ℕ) : ℤ) := by
      generalize step * i = j
      omega
    have e4 := pyIndex_ok (htg _ hj)
    have e5 := pyIndex_ok (hcurve _ hj)
    refine ⟨_, _, _, _, ?_, isPanned_match _ _ _, isPanned_match _ _ _, isPanned_match _ _ _, isPanned_match _ _ _⟩
    unfold drawFrame tailStart
    simp only [e1, e2, e3, e4, e5, bind_ok]
    rfl
  have hlt : ∀ i : ℕ, i < N / step → step * i < N := by
    intro i hi
    have h3 := Nat.mul_div_le N step
    have h4 : step * (i + 1) ≤ step * (N / step) := Nat.mul_le_mul_left _ hi
    rw [mul_add, mul_one] at h4
    omega
  obtain ⟨frames, hfr⟩ : ((List.range s.numFrames.toNat).mapM (drawFrame o.a s cam (.int tail))).Returns := by
    refine mapM_returns fun i hi => ?_
    rw [List.mem_range, hnf] at hi
    obtain ⟨el, az, roll, lim, h, -⟩ := frame i (hlt i hi)
    exact ⟨_, h⟩
  obtain ⟨hfl, hfi⟩ := mapM_ok hfr
  rw [List.length_range, hnf] at hfl
  refine ⟨s, frames, ?_, hfl, ⟨s.trajectory, hcl, hcurve, hext⟩, by rw [hsph]; exact horizonSphere_mem o.a, ?_⟩
  · unfold OrbitObj.animate
    simp only [hset, hfr, bind_ok]
    rfl
  intro i F hF
  obtain ⟨hi, hFe⟩ := List.getElem?_eq_some_iff.mp hF
  have hi' : i < N / step := by omega
  have hj := hlt i hi'
  obtain ⟨el, az, roll, lim, hdf, c1, c2, c3, c4⟩ := frame i hj
  have hfi' := hfi i (by rw [List.length_range, hnf]; exact hi') hi
  rw [List.getElem_range, hdf] at hfi'
  have hF2 := (Except.ok.inj hfi').trans hFe
  clear hfi' hdf frame
  intro j j0 now
  subst hF2
  have hj0 : step * i - 240 * tail ≤ step * i := Nat.sub_le _ _
  have hjl : step * i ≤ s.trajectory.length := by omega
  have hjt : step * i ≤ s.times.length := by omega
  have hpl := pySlice_length s.trajectory hjl hj0
  refine ⟨hj, rfl, c1, c2, c3, c4, ?_, ?_, fun k m m' h h' => consecutive_get h h', ?_, ?_, ?_, ?_⟩
  · rw [maskHidden_length, hpl]
  · intro k hk
    have hg : (pySlice s.trajectory ((step * i - 240 * tail : ℕ) : ℤ) ((step * i : ℕ) : ℤ))[k]?
        = some (cartesian T (Spec.instant lambda0 lambda1 N (j0 + k))) := by
      rw [pySlice_get s.trajectory hjl hj0 hk]
      exact hcurve _ (by omega)
    obtain ⟨m, g1, g2, g3, g4, g5, -⟩ := maskHidden_get o.a el az hg
    exact ⟨m, g1, g2, g3, g4, g5⟩
  · rw [consecutive_length, maskHidden_length, hpl]
  · intro hi0
    have hjp : 1 ≤ step * i := Nat.mul_pos h1 hi0
    have hw : 0 < step * i - (step * i - 240 * tail) := by omega
    have hw' : step * i - (step * i - 240 * tail) ≤ s.decay.length := by omega
    refine ⟨pySliceFrom_length s.decay hw hw', fun k hk => ?_⟩
    rw [pySliceFrom_get s.decay hw hw', hdg _ (by omega), hdl]
    have hN1 : (N:ℝ) - 1 ≠ 0 := by
      have : (2:ℝ) ≤ N := by exact_mod_cast h2
      linarith
    have : lambda1 - Spec.instant lambda0 lambda1 N (N - (step * i - (step * i - 240 * tail)) + k)
        = Spec.instant lambda0 lambda1 N (j - 1) - Spec.instant lambda0 lambda1 N (j0 + k) := by
      have hiN : Spec.instant lambda0 lambda1 N (N - 1) = lambda1 := by
        rw [Spec.instant, ← linspace_eq h2, linspace_last h2]
      have hd := instant_sub lambda0 lambda1 N (N - 1) (N - (step * i - (step * i - 240 * tail)) + k)
      rw [hiN] at hd
      rw [hd, instant_sub]
      congr 2
      have a1 : ((N - 1 : ℕ) : ℝ) - ((N - (step * i - (step * i - 240 * tail)) + k : ℕ) : ℝ)
          = (((N - 1 : ℕ) : ℤ) - ((N - (step * i - (step * i - 240 * tail)) + k : ℕ) : ℤ) : ℤ) := by push_cast; ring
      have a2 : ((j - 1 : ℕ) : ℝ) - ((j0 + k : ℕ) : ℝ) = (((j - 1 : ℕ) : ℤ) - ((j0 + k : ℕ) : ℤ) : ℤ) := by
        push_cast; ring
      rw [a1, a2]
      congr 1
      change _ = (((step * i - 1 : ℕ) : ℤ) - ((step * i - 240 * tail + k : ℕ) : ℤ) : ℤ)
      generalize step * i = j at *
      omega
    rw [this]
  · exact (pySlice_length s.times hjt (Nat.zero_le _)).trans (Nat.sub_zero _)
  · intro k hk
    have := pySlice_get s.times (j0 := 0) (k := k) hjt (Nat.zero_le _) (by omega)
    rw [Nat.zero_add] at this
    exact this.trans (htg k (by omega))

lemma mapM_error {α β : Type} {f : α → Py β} {e : PyErr} : ∀ {l : List α},
    (∀ x ∈ l, (f x).Returns ∨ f x = .error e) → (∃ x ∈ l, f x = .error e) → l.mapM f = .error e
  | [], _, h => by obtain ⟨x, hx, -⟩ := h; simp at hx
  | a :: l, h, h' => by
    rw [List.mapM_cons]
    rcases h a (by simp) with ⟨b, hb⟩ | he
    · have : ∃ x ∈ l, f x = .error e := by
        obtain ⟨x, hx, hxe⟩ := h'
        rcases List.mem_cons.mp hx with rfl | hx
        · rw [hb] at hxe; cases hxe
        · exact ⟨x, hx, hxe⟩
      rw [hb, mapM_error (fun x hx => h x (by simp [hx])) this]
      rfl
    · rw [he]; rfl

/-- **C56 (violated: fractional tail length).** `tail_length` is documented as a `double`, but a float makes the
slice bound a float as soon as the tail has reached its full length: if the last frame is later than `tail_length`
(`240 * tail_length` samples) after the start, `animate` raises `TypeError`, also for a whole number like `5.0`. -/
theorem C56_float_tail_violated (rs : RootScalar) (o : OrbitObj) (lambda0 lambda1 speed tail : ℝ) (cam : Camera)
    (q : Option Phases) (tau : Option ℝ) (T : Traj) (N step : ℕ) (hT : o.trajectoryNat rs q = .ok T)
    (hl : lambda0 ≤ lambda1) (hs : 0 ≤ speed) (hN : (N : ℤ) = ⌊(lambda1 - lambda0) * 240⌋)
    (hstep : (step : ℤ) = ⌊speed * 8⌋) (h2 : 2 ≤ N) (h1 : 1 ≤ step) (hf : 1 ≤ N / step)
    (hlong : 240 * tail < ((step * (N / step - 1) : ℕ) : ℝ)) :
    o.animate rs lambda0 lambda1 cam q tau (.float tail) speed = .error .typeError := by
  obtain ⟨s, hset, hnf, hsst, htl, htg, htr, -⟩ :=
    animSetup_spec rs o lambda0 lambda1 speed q tau T N step hT hl hs hN hstep h2 h1
  have hcurve : ∀ k < N, s.trajectory[k]? = some (cartesian T (Spec.instant lambda0 lambda1 N k)) := by
    intro k hk
    rw [htr, List.getElem?_map, htg k hk, Option.map_some]
  have hlt : ∀ i : ℕ, i < N / step → step * i < N := by
    intro i hi
    have h3 := Nat.mul_div_le N step
    have h4 : step * (i + 1) ≤ step * (N / step) := Nat.mul_le_mul_left _ hi
    rw [mul_add, mul_one] at h4
    omega
  have frame : ∀ i : ℕ, step * i < N → (((step * i : ℕ) : ℝ) - tail * 240 > 0 →
      drawFrame o.a s cam (.float tail) i = .error .typeError)
      ∧ (¬ ((step * i : ℕ) : ℝ) - tail * 240 > 0 → (drawFrame o.a s cam (.float tail) i).Returns) := by
    intro i hj
    have e1 : s.step * (i : ℤ) = ((step * i : ℕ) : ℤ) := by rw [hsst]; push_cast; ring
    have e4 := pyIndex_ok (htg _ hj)
    have e5 := pyIndex_ok (hcurve _ hj)
    have e6 : (((step * i : ℕ) : ℤ) : ℝ) = ((step * i : ℕ) : ℝ) := Int.cast_natCast _
    constructor
    · intro h
      unfold drawFrame tailStart
      simp only [e1, e4, e6, bind_ok, h, if_true]
      rfl
    · intro h
      unfold drawFrame tailStart
      simp only [e1, e4, e5, e6, bind_ok, h, if_false]
      exact ⟨_, rfl⟩
  have : (List.range s.numFrames.toNat).mapM (drawFrame o.a s cam (.float tail)) = .error .typeError := by
    apply mapM_error
    · intro i hi
      rw [List.mem_range, hnf] at hi
      by_cases h : ((step * i : ℕ) : ℝ) - tail * 240 > 0
      · exact .inr ((frame i (hlt i hi)).1 h)
      · exact .inl ((frame i (hlt i hi)).2 h)
    · refine ⟨N / step - 1, ?_, ?_⟩
      · rw [List.mem_range, hnf]; omega
      · exact (frame _ (hlt _ (by omega))).1 (by linarith)
  unfold OrbitObj.animate
  simp only [hset, this, bind_ok]
  rfl

end KGP
