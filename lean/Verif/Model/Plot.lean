import Verif.Model.Orbit

/-!
# `Orbit.plot` and `Orbit.animate` (orbit.py:419-542, 590-880)

The model computes the data that the two methods hand to matplotlib: the sampled points, the masked `z`
coordinates, the segments, line widths and transparencies, the marker of the small body, the camera and the axis limits.
What matplotlib, ffmpeg and tqdm do with them is not modelled, nor are colours, the grid, the background and the text
box.  `nan` in a `z` coordinate is `none`.
-/

namespace KGP

open Classical Real

/-! ### numpy and Python helpers -/

/-- Smallest entry of a non-empty array (`x.min()`, orbit.py:526-528, 754-756). -/
noncomputable def npMin : List ℝ → ℝ
  | [] => 0
  | x :: xs => xs.foldl min x

/-- Largest entry of a non-empty array (`x.max()`, orbit.py:526-528, 757-759). -/
noncomputable def npMax : List ℝ → ℝ
  | [] => 0
  | x :: xs => xs.foldl max x

/-- `np.linspace(lo, hi, num)` as an array; a negative `num` raises `ValueError`
(orbit.py:472, 668). -/
noncomputable def npLinspace (lo hi : ℝ) (num : ℤ) : Py (List ℝ) :=
  if num < 0 then .error (.valueError "Number of samples must be non-negative.")
  else .ok ((List.range num.toNat).map fun i => linspace lo hi num.toNat i)

/-- `l[k]` with Python's negative indices (orbit.py:497, 519, 741, 798, 846-848). -/
def pyIndex {α : Type} (l : List α) (k : ℤ) : Py α :=
  match (if 0 ≤ k then l[k.toNat]? else if -k ≤ l.length then l[(l.length + k).toNat]? else none) with
  | some v => .ok v
  | none => .error .indexError

/-- A slice bound: negative bounds count from the end, everything is clamped to the array. -/
def sliceBound (n : ℕ) (k : ℤ) : ℕ := if 0 ≤ k then min k.toNat n else (n + k).toNat

/-- `l[lo:hi]` (orbit.py:823, 825, 832, 853-856) -/
def pySlice {α : Type} (l : List α) (lo hi : ℤ) : List α :=
  (l.take (sliceBound l.length hi)).drop (sliceBound l.length lo)

/-- `l[lo:]` (orbit.py:843) -/
def pySliceFrom {α : Type} (l : List α) (lo : ℤ) : List α := l.drop (sliceBound l.length lo)

/-- A Python number passed by the user: `int` or `float`. -/
inductive PyNum where
  | int (n : ℤ)
  | float (x : ℝ)

/-- A plotted point: `z = none` stands for `nan`, which matplotlib does not draw. -/
structure MaskedPt where
  x : ℝ
  y : ℝ
  z : Option ℝ

/-- orbit.py:492-505 (also 822-835): the points with `z` replaced by `nan` where `is_visible` is false. -/
noncomputable def maskHidden (a : ℝ) (pts : List Pt) (elevation azimuth : ℝ) : List MaskedPt :=
  List.zipWith (fun (p : Pt) (v : Prop) => ⟨p.x, p.y, if v then some p.z else none⟩) pts
    (isVisible a pts elevation azimuth)

/-- orbit.py:507 (also 836-840): `np.concatenate([points[:-1], points[1:]], axis=1)`. -/
def consecutive (l : List MaskedPt) : List (MaskedPt × MaskedPt) := l.dropLast.zip l.tail

/-- orbit.py:482-488 (also 714-727): the 50 × 25 points of the sphere drawn for the black hole. -/
noncomputable def horizonSphere (a : ℝ) : List Pt :=
  let eventHorizon := 1 + √(1 - a ^ 2)
  (List.range 50).flatMap fun i => (List.range 25).map fun j =>
    let u := linspace 0 (2 * π) 50 i
    let v := linspace 0 π 25 j
    ⟨eventHorizon * (cos u * sin v), eventHorizon * (sin u * sin v), eventHorizon * (1 * cos v)⟩

/-- `exp(-dt / tau)` with `tau = np.inf` (the default of `plot`) as `none`: `exp(-0.0) = 1`
(orbit.py:497, 741).  `tau = 0`, a division by zero in numpy, is not followed. -/
noncomputable def expDecay (tau : Option ℝ) (dt : ℝ) : ℝ :=
  match tau with
  | none => 1
  | some tau => exp (-dt / tau)

/-! ### `plot` -/

/-- What `plot` hands to matplotlib. -/
structure PlotData where
  /-- `time` -/
  times : List ℝ
  /-- `Line3DCollection(segments, linewidth=decay)` -/
  points : List MaskedPt
  segments : List (MaskedPt × MaskedPt)
  widths : List ℝ
  /-- `plot_surface` -/
  sphere : List Pt
  /-- `scatter` -/
  body : Pt
  xlim : ℝ × ℝ
  ylim : ℝ × ℝ
  zlim : ℝ × ℝ
  /-- `view_init(elevation, azimuth)` -/
  view : ℝ × ℝ

/-- orbit.py:419-542 (`plot`), for the trajectory returned by the object. -/
noncomputable def plotTraj (a : ℝ) (T : Traj) (elevation azimuth lw : ℝ)
    (tau : Option ℝ) (times : List ℝ) : Py PlotData := do
  let trajectory := times.map (cartesian T)
  let sphere := horizonSphere a
  let points := maskHidden a trajectory elevation azimuth
  let t0 ← pyIndex times 0
  let decay := (times.map fun t => 0.1 + lw * expDecay tau (t - t0)).reverse
  let body ← pyIndex trajectory (-1)
  let xs := (trajectory ++ sphere).map Pt.x
  let ys := (trajectory ++ sphere).map Pt.y
  let zs := (trajectory ++ sphere).map Pt.z
  return { times := times, points := points, segments := consecutive points, widths := decay
           sphere := sphere, body := body, xlim := (npMin xs, npMax xs), ylim := (npMin ys, npMax ys)
           zlim := (npMin zs, npMax zs), view := (elevation, azimuth) }

/-- orbit.py:419-542 (`plot`) -/
noncomputable def OrbitObj.plot (rs : RootScalar) (o : OrbitObj) (lambda0 : ℝ := 0) (lambda1 : ℝ := 10)
    (elevation : ℝ := 30) (azimuth : ℝ := -60) (initialPhases : Option Phases := none) (lw : ℝ := 1)
    (tau : Option ℝ := none) (pointDensity : ℝ := 200) : Py PlotData := do
  let q := initialPhases.getD o.phases
  let numPts := pyInt ((lambda1 - lambda0) * pointDensity)
  let times ← npLinspace lambda0 lambda1 numPts
  let T ← o.trajectoryNat rs (some q)
  plotTraj o.a T elevation azimuth lw tau times

/-! ### `animate` -/

/-- What `animate` computes before drawing the first frame (orbit.py:665-765). -/
structure AnimSetup where
  numFrames : ℤ
  step : ℤ
  times : List ℝ
  trajectory : List Pt
  sphere : List Pt
  decay : List ℝ
  /-- the initial axis limits are `(-limit, limit)` in all three directions -/
  limit : ℝ

/-- `abs(max(…, key=abs))` of a non-empty list of arguments (orbit.py:752-762). -/
noncomputable def absMaxByAbs (l : List ℝ) : ℝ := npMax (l.map fun x => |x|)

/-- orbit.py:665-765 -/
noncomputable def OrbitObj.animSetup (rs : RootScalar) (o : OrbitObj) (lambda0 : ℝ := 0)
    (lambda1 : ℝ := 10) (initialPhases : Option Phases := none) (tau : Option ℝ := some 2)
    (speed : ℝ := 1) : Py AnimSetup := do
  let numPts := animNumPts lambda0 lambda1
  let times ← npLinspace lambda0 lambda1 numPts
  let numFrames ← animNumFrames lambda0 lambda1 speed
  let T ← o.trajectoryNat rs initialPhases
  let trajectory := times.map (cartesian T)
  let sphere := horizonSphere o.a
  let t0 ← pyIndex times 0
  let decay := (times.map fun t => 0.1 + 0.9 * expDecay tau (t - t0)).reverse
  let xs := (trajectory ++ sphere).map Pt.x
  let ys := (trajectory ++ sphere).map Pt.y
  let zs := (trajectory ++ sphere).map Pt.z
  let limit := absMaxByAbs [npMin xs, npMin ys, npMin zs, npMax xs, npMax ys, npMax zs]
  return { numFrames := numFrames, step := animSpeedMultiplier speed, times := times
           trajectory := trajectory, sphere := sphere, decay := decay, limit := limit }

/-- The camera arguments of `animate`. -/
structure Camera where
  elevation : ℝ := 30
  azimuth : ℝ := -60
  azimuthalPan : Option (ℝ → ℝ) := none
  elevationPan : Option (ℝ → ℝ) := none
  roll : Option (ℝ → ℝ) := none
  axisLimit : Option (ℝ → ℝ) := none

/-- What one call of `draw_frame` hands to matplotlib. -/
structure Frame where
  /-- `view_init(elevation, azimuth, roll)` -/
  elevation : ℝ
  azimuth : ℝ
  roll : ℝ
  /-- axis limits `(-limit, limit)` in force in this frame -/
  limit : ℝ
  points : List MaskedPt
  segments : List (MaskedPt × MaskedPt)
  alphas : List ℝ
  body : Pt
  /-- `time[:j]`, the abscissae of the four component plots -/
  history : List ℝ

/-- orbit.py:797: `max(0, j - tail_length * point_density)`, as a slice bound.  `max` returns its first argument, the
integer `0`, unless the second is strictly larger; a float bound makes the slices of lines 823-832 raise
`TypeError`. -/
noncomputable def tailStart (tailLength : PyNum) (j : ℤ) : Py ℤ :=
  match tailLength with
  | .int n => .ok (max 0 (j - n * 240))
  | .float x => if (j : ℝ) - x * 240 > 0 then .error .typeError else .ok 0

/-- orbit.py:792-856 (`draw_frame`).  The axis limits persist between frames when `axis_limit` is not given. -/
noncomputable def drawFrame (a : ℝ) (s : AnimSetup) (cam : Camera) (tailLength : PyNum) (i : ℕ) :
    Py Frame := do
  let j := s.step * (i : ℤ)
  let currentTime ← pyIndex s.times j
  let az := match cam.azimuthalPan with | some f => f currentTime | none => cam.azimuth
  let el := match cam.elevationPan with | some f => f currentTime | none => cam.elevation
  let roll := match cam.roll with | some f => f currentTime | none => 0
  let limit := match cam.axisLimit with | some f => f currentTime | none => s.limit
  let j0 ← tailStart tailLength j
  let points := maskHidden a (pySlice s.trajectory j0 j) el az
  let body ← pyIndex s.trajectory j
  return { elevation := el, azimuth := az, roll := roll, limit := limit, points := points
           segments := consecutive points, alphas := pySliceFrom s.decay (-(j - j0)), body := body
           history := pySlice s.times 0 j }

/-- orbit.py:590-880 (`animate`): the frames saved to the file, one for every `i` in `range(num_frames)`. -/
noncomputable def OrbitObj.animate (rs : RootScalar) (o : OrbitObj) (lambda0 : ℝ := 0) (lambda1 : ℝ := 10)
    (cam : Camera := {}) (initialPhases : Option Phases := none) (tau : Option ℝ := some 2)
    (tailLength : PyNum := .int 5) (speed : ℝ := 1) : Py (AnimSetup × List Frame) := do
  let s ← o.animSetup rs lambda0 lambda1 initialPhases tau speed
  let frames ← (List.range s.numFrames.toNat).mapM (drawFrame o.a s cam tailLength)
  return (s, frames)

end KGP
