import Verif.Model.Array

/-!
# Array versions are the number versions entry by entry (for C74)
-/

namespace KGP

open Classical Real Matrix

namespace Val

lemma ufunc1_num (f : ℝ → ℝ) (x : ℝ) : ufunc1 f (.num x) = .num (f x) := rfl

lemma ufunc2_num (f : ℝ → ℝ → ℝ) (x y : ℝ) : ufunc2 f (.num x) (.num y) = .num (f x y) := rfl

lemma ufunc2_num_left (f : ℝ → ℝ → ℝ) (x : ℝ) (v : Val) : ufunc2 f (.num x) v = ufunc1 (fun y => f x y) v := by
  cases v <;> rfl

lemma ufunc2_num_right (f : ℝ → ℝ → ℝ) (y : ℝ) (v : Val) : ufunc2 f v (.num y) = ufunc1 (fun x => f x y) v := by
  cases v <;> rfl

lemma ofShape_map (f : ℝ → ℝ) (sh : List ℕ) (d : List ℝ) : ufunc1 f (ofShape sh d) = ofShape sh (d.map f) := by
  unfold ofShape
  split
  · rcases d with _ | ⟨x, _ | ⟨y, d⟩⟩ <;> rfl
  · simp [ufunc1, ofShape, *]

lemma ufunc1_ufunc1 (f g : ℝ → ℝ) (v : Val) : ufunc1 f (ufunc1 g v) = ufunc1 (fun x => f (g x)) v := by
  cases v with
  | num x => rfl
  | bad => rfl
  | arr sh d =>
    change ufunc1 f (ofShape sh (d.map g)) = ofShape sh (d.map fun x => f (g x))
    rw [ofShape_map, List.map_map]; rfl

lemma ofShape_zip (f : ℝ → ℝ → ℝ) (sh : List ℕ) (d d' : List ℝ) (h : d.length = d'.length) :
    ufunc2 f (ofShape sh d) (ofShape sh d') = ofShape sh (List.zipWith f d d') := by
  unfold ofShape
  split
  · rcases d with _ | ⟨x, _ | ⟨y, d⟩⟩ <;> rcases d' with _ | ⟨x', _ | ⟨y', d'⟩⟩ <;> simp_all [ufunc2]
  · simp [ufunc2, ofShape, *]

lemma zipWith_map_self (f : ℝ → ℝ → ℝ) (g h : ℝ → ℝ) (d : List ℝ) :
    List.zipWith f (d.map g) (d.map h) = d.map fun x => f (g x) (h x) := by
  induction d with
  | nil => rfl
  | cons x d ih => simp [ih]

lemma ufunc2_self (f : ℝ → ℝ → ℝ) (g h : ℝ → ℝ) (v : Val) :
    ufunc2 f (ufunc1 g v) (ufunc1 h v) = ufunc1 (fun x => f (g x) (h x)) v := by
  cases v with
  | num x => rfl
  | bad => rfl
  | arr sh d => simp only [ufunc1, ofShape_zip _ _ _ _ (by simp : (d.map g).length = (d.map h).length), zipWith_map_self]

lemma ufunc3_self (f : ℝ → ℝ → ℝ → ℝ) (g h k : ℝ → ℝ) (v : Val) :
    ufunc3 f (ufunc1 g v) (ufunc1 h v) (ufunc1 k v) = ufunc1 (fun x => f (g x) (h x) (k x)) v := by
  cases v with
  | num x => rfl
  | bad => rfl
  | arr sh d =>
    have hz : List.zipWith (fun x yz => f x yz.1 yz.2) (d.map g) ((d.map h).zip (d.map k)) = d.map fun x => f (g x) (h x) (k x) := by
      induction d with
      | nil => rfl
      | cons x d ih => simpa using ih
    simp only [ufunc1]
    by_cases hs : sh = []
    · subst hs
      rcases d with _ | ⟨x, _ | ⟨y, d⟩⟩ <;> simp [ofShape, ufunc3]
    · simp only [ofShape, hs, if_false, ufunc3, and_self, if_true, hz]

lemma add_def (v w : Val) : v + w = ufunc2 (· + ·) v w := rfl
lemma sub_def (v w : Val) : v - w = ufunc2 (· - ·) v w := rfl
lemma mul_def (v w : Val) : v * w = ufunc2 (· * ·) v w := rfl
lemma div_def (v w : Val) : v / w = ufunc2 (· / ·) v w := rfl
lemma neg_def (v : Val) : -v = ufunc1 (- ·) v := rfl
lemma pow_def (v : Val) (n : ℕ) : v ^ n = ufunc1 (· ^ n) v := rfl
lemma ofNat_def (n : ℕ) [n.AtLeastTwo] : (OfNat.ofNat n : Val) = .num (OfNat.ofNat n) := rfl
lemma zero_def : (0 : Val) = .num 0 := rfl
lemma one_def : (1 : Val) = .num 1 := rfl

end Val

open Val

/-- The rules that push an array function to the entries. -/
macro "entrywise" : tactic => `(tactic| simp only [add_def, sub_def, mul_def, div_def, neg_def, pow_def, ofNat_def, zero_def, one_def,
    vsin, vcos, varcsin, varccos, varctan, varctan2, vsqrt, vabs, vlog, vfloor, vcopysign1, velliprf, velliprd, vellipeinc,
    velliprj, vellipj, evenTest, ufunc1_num, ufunc2_num, ufunc2_num_left, ufunc2_num_right, ufunc1_ufunc1, ufunc2_self,
    ufunc3_self])

lemma even_floor (k : ℤ) : ((k : ℝ) - 2 * (⌊(k : ℝ) / 2⌋ : ℝ) = 0) ↔ k % 2 = 0 := by
  have h : ⌊(k : ℝ) / 2⌋ = k / 2 := by
    rw [Int.floor_eq_iff]
    have h1 : (k : ℝ) = 2 * ((k / 2 : ℤ) : ℝ) + ((k % 2 : ℤ) : ℝ) := by
      have : k = 2 * (k / 2) + k % 2 := by omega
      exact_mod_cast this
    have h2 : (0 : ℝ) ≤ ((k % 2 : ℤ) : ℝ) := by exact_mod_cast (by omega : 0 ≤ k % 2)
    have h3 : ((k % 2 : ℤ) : ℝ) ≤ 1 := by exact_mod_cast (by omega : k % 2 ≤ 1)
    constructor <;> linarith
  rw [h]
  constructor
  · intro hk
    have : ((k - 2 * (k / 2) : ℤ) : ℝ) = 0 := by push_cast; exact hk
    have := Int.cast_eq_zero.mp this
    omega
  · intro hk
    have : ((k - 2 * (k / 2) : ℤ) : ℝ) = 0 := by exact_mod_cast (by omega : k - 2 * (k / 2) = 0)
    push_cast at this; exact this

lemma where_item (v : Val) (c x y g : ℝ → ℝ) :
    (if isScalar (ufunc1 g v) then item (npWhere (ufunc1 c v) (ufunc1 x v) (ufunc1 y v))
      else npWhere (ufunc1 c v) (ufunc1 x v) (ufunc1 y v)) = ufunc1 (fun z => if c z = 1 then x z else y z) v := by
  simp only [npWhere, ufunc3_self]
  cases v with
  | num z => rfl
  | bad => rfl
  | arr sh d =>
    by_cases hs : sh = []
    · subst hs
      rcases d with _ | ⟨x, _ | ⟨y, d⟩⟩ <;> simp [ufunc1, ofShape, isScalar, item]
    · simp [ufunc1, ofShape, hs, isScalar]

lemma ellipeincV_eq (phi : Val) (m : ℝ) : ellipeincV phi m = ufunc1 (fun x => ellipeincK x m) phi := by
  unfold ellipeincV
  entrywise
  rw [where_item]
  congr 1
  funext z
  unfold ellipeincK
  simp only [even_floor]
  by_cases h : ⌊z / (π / 2)⌋ % 2 = 0 <;> simp [h]

lemma ellippiincV_eq (phi : Val) (n m : ℝ) : ellippiincV phi n m = ufunc1 (fun x => ellippiincK x n m) phi := by
  unfold ellippiincV
  entrywise
  rw [where_item]
  congr 1
  funext z
  unfold ellippiincK
  simp only [even_floor]
  by_cases h : ⌊z / (π / 2)⌋ % 2 = 0 <;> simp [h]

/-- A function of arrays that applies a function of numbers to every entry. -/
def PhaseSolsV.Lifts (V : PhaseSolsV) (S : PhaseSols) : Prop :=
  V.pos = ufunc1 S.pos ∧ V.dt = ufunc1 S.dt ∧ V.dphi = ufunc1 S.dphi

lemma radialSolutionsV_lifts (a : ℝ) (cs : Consts) (rr : Roots4) : (radialSolutionsV a cs rr).Lifts (radialSolutions a cs rr) := by
  obtain ⟨E, L, Q⟩ := cs
  obtain ⟨r1, r2, r3, r4⟩ := rr
  refine ⟨?_, ?_, ?_⟩ <;> funext v <;> simp only [radialSolutionsV, ellipeincV_eq, ellippiincV_eq] <;> entrywise <;> rfl

lemma polarSolutionsCoreV_lifts (a : ℝ) (cs : Consts) (zm zp : ℝ) :
    (polarSolutionsCoreV a cs zm zp).Lifts (polarSolutionsCore a cs zm zp) := by
  obtain ⟨E, L, Q⟩ := cs
  refine ⟨?_, ?_, ?_⟩ <;> funext v <;> simp only [polarSolutionsCoreV, ellipeincV_eq, ellippiincV_eq] <;> entrywise <;> rfl


lemma plungeIrhV_eq (E A B r1 r2 uR rh : ℝ) : plungeIrhV E A B r1 r2 uR rh = ufunc1 (plungeIrh E A B r1 r2 uR rh) := by
  funext v
  simp only [plungeIrhV, ellippiincV_eq]
  entrywise
  rfl

lemma plungingIntegralsV_eq (a E r1 r2 x y uR : ℝ) :
    (plungingRadialIntegralsCoreV a E r1 r2 x y uR).Ir = ufunc1 (plungingRadialIntegralsCore a E r1 r2 x y uR).Ir
    ∧ (plungingRadialIntegralsCoreV a E r1 r2 x y uR).Ir2 = ufunc1 (plungingRadialIntegralsCore a E r1 r2 x y uR).Ir2
    ∧ (plungingRadialIntegralsCoreV a E r1 r2 x y uR).IrPlus = ufunc1 (plungingRadialIntegralsCore a E r1 r2 x y uR).IrPlus
    ∧ (plungingRadialIntegralsCoreV a E r1 r2 x y uR).IrMinus = ufunc1 (plungingRadialIntegralsCore a E r1 r2 x y uR).IrMinus := by
  refine ⟨?_, ?_, plungeIrhV_eq .., plungeIrhV_eq ..⟩ <;> funext v <;>
    simp only [plungingRadialIntegralsCoreV, ellippiincV_eq] <;> entrywise <;> rfl

lemma plungingRadialV_lifts (a E L r1 r2 x y uR : ℝ) :
    (plungingRadialSolutionsCoreV a E L r1 r2 x y uR).Lifts (plungingRadialSolutionsCore a E L r1 r2 x y uR) := by
  obtain ⟨h1, h2, h3, h4⟩ := plungingIntegralsV_eq a E r1 r2 x y uR
  refine ⟨?_, ?_, ?_⟩ <;> funext v <;> simp only [plungingRadialSolutionsCoreV, h1, h2, h3, h4] <;> entrywise <;> rfl

lemma plungingPolarV_lifts (a E L Q uT : ℝ) :
    (plungingPolarSolutionsCoreV a E L Q uT).Lifts (plungingPolarSolutionsCore a E L Q uT) := by
  refine ⟨?_, ?_, ?_⟩ <;> funext v <;> simp only [plungingPolarSolutionsCoreV, ellippiincV_eq] <;> entrywise <;> rfl

/-- Four functions of arrays that apply four functions of numbers to every entry. -/
def TrajV.Lifts (V : TrajV) (T : Traj) : Prop :=
  V.t = ufunc1 T.t ∧ V.r = ufunc1 T.r ∧ V.theta = ufunc1 T.theta ∧ V.phi = ufunc1 T.phi

lemma assembleTrajectoryV_lifts {R P : PhaseSolsV} {R' P' : PhaseSols} (hR : R.Lifts R') (hP : P.Lifts P') (m : MinoFreqs)
    (q : Phases) : (assembleTrajectoryV R P m q).Lifts (assembleTrajectory R' P' m q) := by
  obtain ⟨a1, a2, a3⟩ := hR
  obtain ⟨b1, b2, b3⟩ := hP
  refine ⟨?_, ?_, ?_, ?_⟩ <;> funext v <;> simp only [assembleTrajectoryV, a1, a2, a3, b1, b2, b3] <;> entrywise <;> rfl

lemma assemblePlungeV_lifts {R P : PhaseSolsV} {R' P' : PhaseSols} (hR : R.Lifts R') (hP : P.Lifts P') (uR uT : ℝ)
    (q : Phases) : (assemblePlungeV R P uR uT q).Lifts (assemblePlunge R' P' uR uT q) := by
  obtain ⟨a1, a2, a3⟩ := hR
  obtain ⟨b1, b2, b3⟩ := hP
  refine ⟨?_, ?_, ?_, ?_⟩ <;> funext v <;> simp only [assemblePlungeV, a1, a2, a3, b1, b2, b3] <;> entrywise <;> rfl

lemma fourVelocityV_lifts {V : TrajV} {T : Traj} (h : V.Lifts T) (a : ℝ) (cs : Consts) (uR uT : ℝ) (q : Phases) :
    (fourVelocityV a V cs uR uT q).Lifts (fourVelocity a T cs uR uT q) := by
  obtain ⟨a1, a2, a3, a4⟩ := h
  obtain ⟨E, L, Q⟩ := cs
  refine ⟨?_, ?_, ?_, ?_⟩ <;> funext v <;> simp only [fourVelocityV, a2, a3] <;> entrywise <;> rfl

/-- Two computations that raise the same exception or return related values. -/
def PyRel {α β : Type} (r : α → β → Prop) : Py α → Py β → Prop
  | .ok x, .ok y => r x y
  | .error e, .error e' => e = e'
  | _, _ => False

lemma stableTrajectoryNatV_rel (rs : RootScalar) (a p e x : ℝ) (q : Phases) :
    PyRel TrajV.Lifts (stableTrajectoryNatV rs a p e x q) (stableTrajectoryNat rs a p e x q) := by
  unfold stableTrajectoryNatV stableTrajectoryNat
  rcases minoFrequencies rs a p e x with e1 | m
  · rfl
  rcases constantsOfMotion rs a p e x with e1 | cs
  · rfl
  simp only [bind, Except.bind]
  rcases stableRadialRoots rs a p e x (some cs) with e1 | rr
  · rfl
  rcases stablePolarRoots rs a p e x (some cs) with e1 | ⟨zm, zp⟩
  · rfl
  exact assembleTrajectoryV_lifts (radialSolutionsV_lifts ..) (polarSolutionsCoreV_lifts ..) m q

lemma plungingTrajectoryNatV_rel (a E L Q : ℝ) (q : Phases) :
    PyRel TrajV.Lifts (plungingTrajectoryNatV a E L Q q) (plungingTrajectoryNat a E L Q q) := by
  unfold plungingTrajectoryNatV plungingTrajectoryNat complexPlungeTrajectoryNat realPlungeTrajectoryNat
    plungingRadialSolutionsComplex plungingPolarSolutions
  rcases plungingRadialRoots a E L Q with e1 | pr
  · rfl
  rcases pr with ⟨r1, r2, r3, r4⟩ | ⟨r1, r2, r3, r4⟩
  · simp only [bind, Except.bind]
    rcases polarRootsNumpy a E L Q with e1 | ⟨zm, zp⟩
    · rfl
    have := assembleTrajectoryV_lifts (radialSolutionsV_lifts a (E, L, Q) (r1, r2, r3, r4))
      (polarSolutionsCoreV_lifts a (E, L, Q) zm zp) (minoFrequenciesFromConstants a (E, L, Q) (r1, r2, r3, r4) (zm, zp)) q
    simp only [polarSolutions, pure, Except.pure, PyRel]
    by_cases hg : gammaIsInf (r1, r2, r3, r4)
    · simp only [hg, if_true]
      exact ⟨rfl, this.2⟩
    · simp only [hg]
      exact this
  · simp only [bind, Except.bind]
    rcases plungingMinoFrequencies a E L Q with e1 | ⟨uR, uT⟩
    · rfl
    exact assemblePlungeV_lifts (plungingRadialV_lifts ..) (plungingPolarV_lifts ..) uR uT q

lemma trajectoryNatV_rel (rs : RootScalar) (o : OrbitObj) (q : Option Phases) :
    PyRel TrajV.Lifts (o.trajectoryNatV rs q) (o.trajectoryNat rs q) := by
  unfold OrbitObj.trajectoryNatV OrbitObj.trajectoryNat
  obtain ⟨p, e, x⟩ := o.apex
  obtain ⟨E, L, Q⟩ := o.consts
  simp only
  split
  · exact stableTrajectoryNatV_rel ..
  · exact plungingTrajectoryNatV_rel ..

lemma PyRel.bind {α β γ δ : Type} {r : α → β → Prop} {s : γ → δ → Prop} {x : Py α} {y : Py β} {f : α → Py γ} {g : β → Py δ}
    (h : PyRel r x y) (hf : ∀ a b, r a b → PyRel s (f a) (g b)) : PyRel s (x >>= f) (y >>= g) := by
  rcases x with e1 | x <;> rcases y with e2 | y
  · exact h
  · exact h.elim
  · exact h.elim
  · exact hf x y h

lemma fourVelocityV_rel (rs : RootScalar) (o : OrbitObj) (q : Option Phases) :
    PyRel TrajV.Lifts (o.fourVelocityV rs q) (o.fourVelocity rs q) :=
  (trajectoryNatV_rel rs o (some (q.getD o.phases))).bind fun _ _ h => fourVelocityV_lifts h ..

lemma numericalV_rel (rs : RootScalar) (o : OrbitObj) (dx : ℝ) (q : Option Phases) :
    PyRel TrajV.Lifts (o.numericalFourVelocityV rs dx q) (o.numericalFourVelocity rs dx q) :=
  (trajectoryNatV_rel rs o (some (q.getD o.phases))).bind fun V T h => by
    obtain ⟨a1, a2, a3, a4⟩ := h
    refine ⟨?_, ?_, ?_, ?_⟩ <;> funext v <;> simp only [fivePointV, a1, a2, a3, a4] <;> entrywise <;> rfl

def DeltasV.Lifts (V : DeltasV) (D : Deltas) : Prop :=
  V.dtR = ufunc1 D.dtR ∧ V.dtTheta = ufunc1 D.dtTheta ∧ V.dphiR = ufunc1 D.dphiR ∧ V.dphiTheta = ufunc1 D.dphiTheta

lemma deltasOfV_lifts {R P : PhaseSolsV} {R' P' : PhaseSols} (hR : R.Lifts R') (hP : P.Lifts P') (u v : ℝ) :
    (deltasOfV R P u v).Lifts (deltasOf R' P' u v) := by
  obtain ⟨a1, a2, a3⟩ := hR
  obtain ⟨b1, b2, b3⟩ := hP
  refine ⟨?_, ?_, ?_, ?_⟩ <;> funext v <;> simp only [deltasOfV, a1, a2, a3, b1, b2, b3] <;> entrywise <;> rfl

lemma deltasV_rel (rs : RootScalar) (o : OrbitObj) (q : Option Phases) :
    PyRel DeltasV.Lifts (o.trajectoryDeltasV rs q) (o.trajectoryDeltas rs q) := by
  unfold OrbitObj.trajectoryDeltasV OrbitObj.trajectoryDeltas plungingRadialSolutionsComplex plungingPolarSolutions
  obtain ⟨p, e, x⟩ := o.apex
  generalize o.consts = cs
  obtain ⟨E, L, Q⟩ := cs
  simp only
  split
  · simp only [bind, Except.bind]
    rcases stableRadialRoots rs o.a p e x (some (E, L, Q)) with e1 | rr
    · rfl
    rcases stablePolarRoots rs o.a p e x (some (E, L, Q)) with e1 | ⟨zm, zp⟩
    · rfl
    exact deltasOfV_lifts (radialSolutionsV_lifts ..) (polarSolutionsCoreV_lifts ..) _ _
  · rcases plungingRadialRoots o.a E L Q with e1 | pr
    · rfl
    rcases pr with ⟨r1, r2, r3, r4⟩ | ⟨r1, r2, r3, r4⟩
    · rfl
    · simp only [bind, Except.bind]
      rcases plungingMinoFrequencies o.a E L Q with e1 | ⟨uR, uT⟩
      · rfl
      exact deltasOfV_lifts (plungingRadialV_lifts ..) (plungingPolarV_lifts ..) _ _

lemma distanceV_eq (f : ℝ → ℝ) (M : ℝ) (v : Val) :
    distanceInMetersV (ufunc1 f v) M = ufunc1 (fun x => Units.distanceInMeters (f x) M) v := by
  unfold distanceInMetersV; entrywise; rfl

lemma timeV_eq (f : ℝ → ℝ) (M : ℝ) (v : Val) :
    timeInSecondsV (ufunc1 f v) M = ufunc1 (fun x => Units.timeInSeconds (f x) M) v := by
  unfold timeInSecondsV; entrywise; rfl

lemma convTimeV_eq (u : String) (M : Option ℝ) : (∃ e, (∀ x, convTime u M x = .error e) ∧ ∀ v, convTimeV u M v = .error e)
    ∨ ∃ h : ℝ → ℝ, (∀ x, convTime u M x = .ok (h x)) ∧ ∀ f v, convTimeV u M (ufunc1 f v) = .ok (ufunc1 (fun x => h (f x)) v) := by
  unfold convTime convTimeV
  split_ifs
  · exact .inr ⟨id, fun _ => rfl, fun _ _ => rfl⟩
  · rcases M with _ | M
    · exact .inl ⟨_, fun _ => rfl, fun _ => rfl⟩
    · exact .inr ⟨_, fun _ => rfl, fun f v => by simp only [withMV, timeV_eq]⟩
  · rcases M with _ | M
    · exact .inl ⟨_, fun _ => rfl, fun _ => rfl⟩
    · exact .inr ⟨_, fun _ => rfl, fun f v => by simp only [withMV, timeV_eq]⟩
  · rcases M with _ | M
    · exact .inl ⟨_, fun _ => rfl, fun _ => rfl⟩
    · exact .inr ⟨_, fun _ => rfl, fun f v => by simp only [withMV, timeV_eq]; entrywise; rfl⟩
  · exact .inl ⟨_, fun _ => rfl, fun _ => rfl⟩

lemma convDistanceV_eq (u : String) (M : Option ℝ) :
    (∃ e, (∀ x, convDistance u M x = .error e) ∧ ∀ v, convDistanceV u M v = .error e)
    ∨ ∃ h : ℝ → ℝ, (∀ x, convDistance u M x = .ok (h x))
      ∧ ∀ f v, convDistanceV u M (ufunc1 f v) = .ok (ufunc1 (fun x => h (f x)) v) := by
  unfold convDistance convDistanceV
  split_ifs
  · exact .inr ⟨id, fun _ => rfl, fun _ _ => rfl⟩
  · rcases M with _ | M
    · exact .inl ⟨_, fun _ => rfl, fun _ => rfl⟩
    · exact .inr ⟨_, fun _ => rfl, fun f v => by simp only [withMV, distanceV_eq]⟩
  · rcases M with _ | M
    · exact .inl ⟨_, fun _ => rfl, fun _ => rfl⟩
    · exact .inr ⟨_, fun _ => rfl, fun f v => by simp only [withMV, distanceV_eq]; entrywise; rfl⟩
  · rcases M with _ | M
    · exact .inl ⟨_, fun _ => rfl, fun _ => rfl⟩
    · exact .inr ⟨_, fun _ => rfl, fun f v => by simp only [withMV, distanceV_eq]; entrywise; rfl⟩
  · rcases M with _ | M
    · exact .inl ⟨_, fun _ => rfl, fun _ => rfl⟩
    · exact .inr ⟨_, fun _ => rfl, fun f v => by simp only [withMV, distanceV_eq]; entrywise; rfl⟩
  · exact .inl ⟨_, fun _ => rfl, fun _ => rfl⟩

end KGP
