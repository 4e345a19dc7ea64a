import Verif.Model.Orbit
import Verif.Props.EllipticIntegrals
import Verif.Props.Spacetime
import Verif.Props.Units
import Verif.Props.Roots
import Verif.Props.Separatrix
import Verif.Props.Api
import Verif.Props.RootsStable
import Verif.Props.Trajectory
import Verif.Props.Objects
import Verif.Props.Plot
import Verif.Props.ConstantsExact
import Verif.Props.GeodesicApi
import Verif.Props.Deltas
import Verif.Props.Future
import Verif.Props.Plunge
import Verif.Props.InitialData
import Verif.Props.Classify
import Verif.Props.RealPlunge
import Verif.Props.NegativeSpin
import Verif.Props.StableExact
import Verif.Props.StableIff
import Verif.Props.KerrOrbits
import Verif.Props.RoundTrip
import Verif.Props.Marginal
import Verif.Props.Restart
import Verif.Props.Parabolic
import Verif.Props.ClosedForms
import Verif.Props.Symmetry
import Verif.Props.SepContinuity
import Verif.Props.SchwarzschildOrbit
import Verif.Props.Witnesses
import Verif.Spec.Geodesic
import Verif.Lemmas.SecondOrder
import Verif.Lemmas.KerrGeodesic
import Verif.Lemmas.GeodesicUnique
import Verif.Props.GeodesicEquation
import Verif.Props.InitialValue
import Verif.Props.Drawing
import Verif.Props.DrawingOrbits
import Verif.Props.HorizonRoot
import Verif.Props.Numerical
import Verif.Lemmas.PhaseTurns
import Verif.Props.PlungeSymmetry
import Verif.Props.PlungeRestart
import Verif.Props.PlungeInitialValue
import Verif.Lemmas.ConstantsForm
import Verif.Props.ConstantsContinuity
import Verif.Lemmas.EllipticContinuity
import Verif.Props.TrajectoryContinuity
import Verif.Lemmas.LogDivergence
import Verif.Props.HorizonCrossing
import Verif.Lemmas.Precession
import Verif.Props.Precession
import Verif.Lemmas.ZoomWhirl
import Verif.Props.ZoomWhirl
import Verif.Lemmas.Kepler
import Verif.Lemmas.PostNewton
import Verif.Props.Kepler
import Verif.Lemmas.SepOrder
import Verif.Props.SepOrder
import Verif.Props.Retrograde
import Verif.Lemmas.EnergyMono
import Verif.Lemmas.EnergyPath
import Verif.Props.EnergyOrder
import Verif.Lemmas.EccMono
import Verif.Lemmas.EccLimit
import Verif.Props.EccentricityOrder
import Verif.Lemmas.SpinCert
import Verif.Lemmas.SpinOrder
import Verif.Props.SpinOrder
import Verif.Lemmas.Actions
import Verif.Props.ConstantsSmooth
import Verif.Props.FirstLaw
import Verif.Props.Resonance
import Verif.Model.Array
import Verif.Lemmas.Array
import Verif.Props.Vectorised
import Verif.Props.Unbound
import Verif.Model.Finite
import Verif.Lemmas.Finite
import Verif.Lemmas.FiniteSolutions
import Verif.Lemmas.FiniteConstants
import Verif.Lemmas.FiniteOrbits
import Verif.Props.Finite
import Verif.Model.FinitePlunge
import Verif.Lemmas.FinitePlunge
import Verif.Lemmas.FinitePlungeExc
import Verif.Props.FinitePlunge
import Verif.Model.FiniteRealPlunge
import Verif.Lemmas.FiniteRealPlunge
import Verif.Props.FiniteRealPlunge
import Verif.Props.Binding
import Verif.Props.Periapsis
import Verif.Props.EquatorialBounds
import Verif.Props.PeriapsisOrder
import Verif.Props.Spherical
import Verif.Props.SphericalLimits
import Verif.Props.SphericalBounds
import Verif.Props.MarginalOrder
import Verif.Props.OrbitBounds
