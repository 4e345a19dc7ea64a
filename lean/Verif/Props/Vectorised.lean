import Verif.Lemmas.Array
import Verif.Props.EllipticIntegrals
import Verif.Props.Deltas

/-!
# C74: the returned functions may be called with arrays
-/

namespace KGP

open Classical Real Matrix

/-- `F`, called with numbers or arrays, is the function `g` of numbers applied to every entry: a number (or an array of shape
`()`) gives a number, any other array gives an array of the same shape whose entries are those of `g`. -/
def Spec.Vectorised (F : Val → Val) (g : ℝ → ℝ) : Prop :=
  (∀ x, F (.num x) = .num (g x)) ∧ (∀ x, F (.arr [] [x]) = .num (g x))
    ∧ ∀ shape entries, shape ≠ [] → entries.length = shape.prod → F (.arr shape entries) = .arr shape (entries.map g)

/-- The same for functions that can raise: the same exception on arrays as on numbers, and the values entry by entry. -/
def Spec.VectorisedPy (F : Val → Py Val) (g : ℝ → Py ℝ) : Prop :=
  (∃ err, (∀ x, g x = .error err) ∧ ∀ v, F v = .error err)
    ∨ ∃ (G : Val → Val) (h : ℝ → ℝ), (∀ v, F v = .ok (G v)) ∧ (∀ x, g x = .ok (h x)) ∧ Spec.Vectorised G h

lemma vectorised_ufunc1 (g : ℝ → ℝ) : Spec.Vectorised (Val.ufunc1 g) g :=
  ⟨fun _ => rfl, fun _ => rfl, fun sh d hs _ => by simp [Val.ufunc1, Val.ofShape, hs]⟩

lemma TrajV.Lifts.vectorised {V : TrajV} {T : Traj} (h : V.Lifts T) : Spec.Vectorised V.t T.t ∧ Spec.Vectorised V.r T.r
    ∧ Spec.Vectorised V.theta T.theta ∧ Spec.Vectorised V.phi T.phi := by
  obtain ⟨h1, h2, h3, h4⟩ := h
  rw [h1, h2, h3, h4]
  exact ⟨vectorised_ufunc1 _, vectorised_ufunc1 _, vectorised_ufunc1 _, vectorised_ufunc1 _⟩

lemma PyRel.split {α β : Type} {r : α → β → Prop} {x : Py α} {y : Py β} (h : PyRel r x y) :
    (∀ err, y = .error err → x = .error err) ∧ ∀ T, y = .ok T → ∃ V, x = .ok V ∧ r V T := by
  rcases x with e1 | x <;> rcases y with e2 | y
  · exact ⟨fun err he => congrArg Except.error ((show e1 = e2 from h).trans (Except.error.inj he)), fun T hT => by cases hT⟩
  · exact h.elim
  · exact h.elim
  · refine ⟨fun err he => (by cases he), fun T hT => ⟨x, rfl, ?_⟩⟩
    cases hT
    exact h

/-- **C74 (elliptic integrals).** `_ellipeinc(phi, m)` and `_ellippiinc(phi, n, m)` return for an array of amplitudes the
documented integrals entry by entry, and for a number a number. -/
theorem C74_elliptic (n m : ℝ) (hn : n < 1) (hm : m < 1) :
    Spec.Vectorised (fun phi => ellipeincV phi m) (fun φ => ∫ θ in (0:ℝ)..φ, √(1 - m * sin θ ^ 2))
    ∧ Spec.Vectorised (fun phi => ellippiincV phi n m)
        (fun φ => ∫ θ in (0:ℝ)..φ, 1 / ((1 - n * sin θ ^ 2) * √(1 - m * sin θ ^ 2))) := by
  simp only [ellipeincV_eq, ellippiincV_eq, C17_ellippiinc _ n m hn hm, C17_ellipeinc _ m hm]
  exact ⟨vectorised_ufunc1 _, vectorised_ufunc1 _⟩

variable (rs : RootScalar) (o : OrbitObj) (q : Option Phases)

/-- **C74 (trajectories).** `trajectory(…)` of any orbit object raises the same exceptions whether it is later used with
numbers or arrays, and the four functions it returns, called with an array of Mino times of any shape, return the array of
that shape with the values at the single Mino times. -/
theorem C74_trajectory (du tu : String) :
    (∀ err, o.trajectory rs q du tu = .error err → o.trajectoryV rs q du tu = .error err)
    ∧ ∀ T, o.trajectory rs q du tu = .ok T → ∃ V, o.trajectoryV rs q du tu = .ok V
        ∧ Spec.VectorisedPy V.t T.t ∧ Spec.VectorisedPy V.r T.r ∧ Spec.Vectorised V.theta T.theta
        ∧ Spec.Vectorised V.phi T.phi := by
  have key : ∀ {V : TrajV} {T : Traj}, V.Lifts T → Spec.VectorisedPy (fun lam => convTimeV tu o.M (V.t lam))
      (T.withUnits o.M du tu).t ∧ Spec.VectorisedPy (fun lam => convDistanceV du o.M (V.r lam)) (T.withUnits o.M du tu).r
      ∧ Spec.Vectorised V.theta (T.withUnits o.M du tu).theta ∧ Spec.Vectorised V.phi (T.withUnits o.M du tu).phi := by
    rintro V T ⟨h1, h2, h3, h4⟩
    refine ⟨?_, ?_, ?_, ?_⟩
    · rcases convTimeV_eq tu o.M with ⟨e, h5, h6⟩ | ⟨h, h5, h6⟩
      · exact .inl ⟨e, fun x => h5 _, fun v => h6 _⟩
      · exact .inr ⟨_, _, fun v => by rw [h1]; exact h6 _ _, fun x => h5 _, vectorised_ufunc1 _⟩
    · rcases convDistanceV_eq du o.M with ⟨e, h5, h6⟩ | ⟨h, h5, h6⟩
      · exact .inl ⟨e, fun x => h5 _, fun v => h6 _⟩
      · exact .inr ⟨_, _, fun v => by rw [h2]; exact h6 _ _, fun x => h5 _, vectorised_ufunc1 _⟩
    · rw [h3]; exact vectorised_ufunc1 _
    · rw [h4]; exact vectorised_ufunc1 _
  refine PyRel.split (r := fun (V : TrajPyV) (T : TrajPy) => Spec.VectorisedPy V.t T.t ∧ Spec.VectorisedPy V.r T.r
    ∧ Spec.Vectorised V.theta T.theta ∧ Spec.Vectorised V.phi T.phi) ?_
  have hnat := trajectoryNatV_rel rs o q
  unfold OrbitObj.trajectoryV OrbitObj.trajectory
  unfold OrbitObj.trajectoryNat at hnat
  generalize hV : o.trajectoryNatV rs q = V at hnat ⊢
  clear hV
  obtain ⟨cls, a, stable, ⟨p, e, x⟩, ⟨E, L, Q⟩, uR, uT, uP, ga, om, ph, M, mu⟩ := o
  simp only at hnat key ⊢
  by_cases hs : stable = true
  · simp only [hs, if_true] at hnat ⊢
    unfold stableTrajectory
    rcases unitsGuard M du tu with e1 | u
    · rfl
    · refine PyRel.bind (r := TrajV.Lifts) hnat fun V T h => ?_
      exact key h
  · simp only [hs, if_false, Bool.false_eq_true] at hnat ⊢
    unfold plungingTrajectory
    rcases plungingRadialRoots a E L Q with e1 | pr
    · rfl
    rcases unitsGuard M du tu with e1 | u
    · rfl
    · refine PyRel.bind (r := TrajV.Lifts) hnat fun V T h => ?_
      exact key h

/-- **C74 (four-velocity).** The same for the functions returned by `four_velocity`, by `numerical_four_velocity` and by
`trajectory_deltas` (arrays of phases). -/
theorem C74_four_velocity (dx : ℝ) :
    (∀ err, o.fourVelocity rs q = .error err → o.fourVelocityV rs q = .error err)
    ∧ (∀ U, o.fourVelocity rs q = .ok U → ∃ V, o.fourVelocityV rs q = .ok V
        ∧ Spec.Vectorised V.t U.t ∧ Spec.Vectorised V.r U.r ∧ Spec.Vectorised V.theta U.theta ∧ Spec.Vectorised V.phi U.phi)
    ∧ (∀ err, o.numericalFourVelocity rs dx q = .error err → o.numericalFourVelocityV rs dx q = .error err)
    ∧ (∀ U, o.numericalFourVelocity rs dx q = .ok U → ∃ V, o.numericalFourVelocityV rs dx q = .ok V
        ∧ Spec.Vectorised V.t U.t ∧ Spec.Vectorised V.r U.r ∧ Spec.Vectorised V.theta U.theta ∧ Spec.Vectorised V.phi U.phi)
    ∧ (∀ err, o.trajectoryDeltas rs q = .error err → o.trajectoryDeltasV rs q = .error err)
    ∧ (∀ D, o.trajectoryDeltas rs q = .ok D → ∃ V, o.trajectoryDeltasV rs q = .ok V
        ∧ Spec.Vectorised V.dtR D.dtR ∧ Spec.Vectorised V.dtTheta D.dtTheta ∧ Spec.Vectorised V.dphiR D.dphiR
        ∧ Spec.Vectorised V.dphiTheta D.dphiTheta) := by
  obtain ⟨h1, h2⟩ := (fourVelocityV_rel rs o q).split
  obtain ⟨h3, h4⟩ := (numericalV_rel rs o dx q).split
  obtain ⟨h5, h6⟩ := (deltasV_rel rs o q).split
  refine ⟨h1, fun U hU => ?_, h3, fun U hU => ?_, h5, fun D hD => ?_⟩
  · obtain ⟨V, hV, h⟩ := h2 U hU
    exact ⟨V, hV, h.vectorised⟩
  · obtain ⟨V, hV, h⟩ := h4 U hU
    exact ⟨V, hV, h.vectorised⟩
  · obtain ⟨V, hV, k1, k2, k3, k4⟩ := h6 D hD
    refine ⟨V, hV, ?_⟩
    rw [k1, k2, k3, k4]
    exact ⟨vectorised_ufunc1 _, vectorised_ufunc1 _, vectorised_ufunc1 _, vectorised_ufunc1 _⟩

/-- **C74 (what plot draws).** The three columns computed by `plot` and `animate` from the array of times are the cartesian
coordinates of the positions at the single times. -/
theorem C74_plot_columns (T : Traj) (hT : o.trajectoryNat rs q = .ok T) : ∃ V, o.trajectoryNatV rs q = .ok V
    ∧ ∀ times : List ℝ, cartesianV V (.arr [times.length] times)
        = (.arr [times.length] (times.map fun lam => (cartesian T lam).x),
           .arr [times.length] (times.map fun lam => (cartesian T lam).y),
           .arr [times.length] (times.map fun lam => (cartesian T lam).z)) := by
  obtain ⟨V, hV, h1, h2, h3, h4⟩ := (trajectoryNatV_rel rs o q).split.2 T hT
  refine ⟨V, hV, fun times => ?_⟩
  unfold cartesianV
  rw [h2, h3, h4]
  entrywise
  simp [Val.ufunc1, Val.ofShape, cartesian]

lemma npMatrix_num (rows : Fin 4 → Fin 4 → Val) (g : Matrix (Fin 4) (Fin 4) ℝ) (h : ∀ i j, rows i j = .num (g i j)) :
    npMatrix rows = .ok g := by
  have h' : ∀ i j, ∃ x, rows i j = .num x := fun i j => ⟨_, h i j⟩
  unfold npMatrix
  rw [dif_pos h']
  congr 1
  ext i j
  exact Val.num.inj ((h' i j).choose_spec.symm.trans (h i j))

lemma metricV_num (a t r theta phi : ℝ) : metricV a (.num r) (.num theta) = .ok (metric a t r theta phi) := by
  unfold metricV
  apply npMatrix_num
  intro i j
  fin_cases i <;> fin_cases j <;> simp [metric] <;> entrywise <;> exact congrArg Val.num (by ring)

/-- **C74 (the norm takes single times only).** The function returned by `_four_velocity_norm` returns a number for a number;
for an array of Mino times it raises `ValueError`, because `metric` builds a nested list that mixes numbers and arrays. -/
theorem C74_norm_scalar_only (N : ℝ → ℝ) (hN : o.fourVelocityNorm rs q = .ok N) : ∃ NV, o.fourVelocityNormV rs q = .ok NV
    ∧ (∀ lam, NV (.num lam) = .ok (.num (N lam)))
    ∧ ∀ shape entries, shape ≠ [] → (NV (.arr shape entries)).IsValueError := by
  unfold OrbitObj.fourVelocityNorm at hN
  unfold OrbitObj.fourVelocityNormV
  have hT := trajectoryNatV_rel rs o (some (q.getD o.phases))
  have hU := fourVelocityV_rel rs o (some (q.getD o.phases))
  revert hN hT hU
  simp only
  rcases o.trajectoryNatV rs (some (q.getD o.phases)) with e1 | V <;>
    rcases o.trajectoryNat rs (some (q.getD o.phases)) with e2 | T <;>
    rcases o.fourVelocityV rs (some (q.getD o.phases)) with e3 | W <;>
    rcases o.fourVelocity rs (some (q.getD o.phases)) with e4 | U <;> intro hN hT hU <;>
    first | exact hT.elim | exact hU.elim | cases hN
  refine ⟨_, rfl, fun lam => ?_, fun sh d hs => ?_⟩
  · obtain ⟨-, t2, t3, -⟩ := hT
    obtain ⟨u1, u2, u3, u4⟩ := hU
    simp only [t2, t3, u1, u2, u3, u4, Val.ufunc1_num]
    unfold normV
    rw [metricV_num o.a (T.t lam) _ _ (T.phi lam)]
    have hv : ∀ i : Fin 4, (![Val.num (U.t lam), .num (U.r lam), .num (U.theta lam), .num (U.phi lam)] : Fin 4 → Val) i
        = .num ((U.at lam).toVec i) := by
      intro i; fin_cases i <;> rfl
    have hex : ∀ i : Fin 4, ∃ x, (![Val.num (U.t lam), .num (U.r lam), .num (U.theta lam), .num (U.phi lam)] : Fin 4 → Val) i
        = .num x := fun i => ⟨_, hv i⟩
    simp only [bind, Except.bind, pure, Except.pure]
    rw [dif_pos hex]
    have hw : (fun i => (hex i).choose) = (U.at lam).toVec := by
      funext i
      exact Val.num.inj ((hex i).choose_spec.symm.trans (hv i))
    rw [hw]
    rfl
  · obtain ⟨-, t2, t3, -⟩ := hT
    refine ⟨"setting an array element with a sequence", ?_⟩
    simp only [t2, t3]
    have : metricV o.a (Val.ufunc1 T.r (.arr sh d)) (Val.ufunc1 T.theta (.arr sh d))
        = .error (.valueError "setting an array element with a sequence") := by
      unfold metricV npMatrix
      rw [dif_neg]
      intro h
      obtain ⟨x, hx⟩ := h 2 2
      revert hx
      simp only [Matrix.cons_val]
      entrywise
      simp [Val.ufunc1, Val.ofShape, hs]
    unfold normV
    rw [this]
    rfl

/-- Non-vacuity: a `StableOrbit` whose functions are evaluated on a 2×2 array of Mino times, and whose norm function refuses it. -/
example (rs : RootScalar) (q : Phases) : ∃ o pos vel U V NV,
    mkStableOrbit rs (9 / 10) 13 (1 / 2) (-1 / 2) q = .ok (o, pos, vel)
    ∧ o.fourVelocity rs = .ok U ∧ o.fourVelocityV rs = .ok V ∧ o.fourVelocityNormV rs = .ok NV
    ∧ V.t (.arr [2, 2] [0, 1, 2, 3]) = .arr [2, 2] [U.t 0, U.t 1, U.t 2, U.t 3]
    ∧ (NV (.arr [2, 2] [0, 1, 2, 3])).IsValueError := by
  have hb : Spec.BoundOrbit rs (9 / 10) 13 (1 / 2) (-1 / 2) :=
    C11_accepts_wide rs _ _ _ _ (by norm_num [abs_lt]) (by norm_num) (by norm_num) (by norm_num [abs_le]) (by norm_num)
  obtain ⟨⟨o, pos, vel⟩, ho⟩ := (C41_constructible rs (9 / 10) 13 (1 / 2) (-1 / 2) q none none).mpr
    ⟨hb, by norm_num, by norm_num⟩
  obtain ⟨-, -, -, -, -, hph, -, -, -, ⟨T, U, hT, hU, -, -, hT', -⟩, -⟩ := C41_attributes rs _ _ _ _ q none none o pos vel ho
  obtain ⟨V, hV, h1, -⟩ := (C74_four_velocity rs o none 1).2.1 U hU
  obtain ⟨N, hN⟩ : ∃ N, o.fourVelocityNorm rs none = .ok N := by
    unfold OrbitObj.fourVelocityNorm
    have e1 : o.fourVelocity rs (some q) = .ok U := by
      rw [← hU]; unfold OrbitObj.fourVelocity; simp [hph]
    simp only [Option.getD_none, hph, hT', e1]
    exact ⟨_, rfl⟩
  obtain ⟨NV, hNV, -, h3⟩ := C74_norm_scalar_only rs o none N hN
  exact ⟨o, pos, vel, U, V, NV, ho, hU, hV, hNV, h1.2.2 _ _ (by simp) (by simp), h3 _ _ (by simp)⟩

end KGP
