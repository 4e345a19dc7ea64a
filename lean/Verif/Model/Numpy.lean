import Verif.Model.Py
import Mathlib.Analysis.Complex.Polynomial.Basic
import Mathlib.Data.Multiset.Sort
import Mathlib.Algebra.Polynomial.Roots

/-!
# numpy primitives used by kerrgeopy (contracts of an external library, part of the trusted base)
-/

namespace KGP

open Classical

/-- `numpy.nan` (constants.py:140).  An unspecified real number: nothing can be proved about its
value, so no theorem can depend on it. -/
noncomputable def pyNan : ℝ := Classical.choice (⟨0⟩ : Nonempty ℝ)

/-- `numpy.sqrt` of a possibly negative number is `nan`.  Used in the model where the code does take the
square root of a negative number (frequencies.py:578); elsewhere `√`. -/
noncomputable def npSqrt (x : ℝ) : ℝ := if x < 0 then pyNan else √x

/-- `numpy.inf` (frequencies.py:324,699).  As `pyNan`: an unspecified real number. -/
noncomputable def pyInf : ℝ := Classical.choice (⟨0⟩ : Nonempty ℝ)

/-- `numpy.inf * x + …` (plunge.py:690 when `gamma` is infinite): `±inf` for `x ≠ 0`, `nan` for
`x = 0`.  An unspecified function, about whose values nothing can be proved. -/
noncomputable def pyInfTimes : ℝ → ℝ := Classical.choice (⟨id⟩ : Nonempty (ℝ → ℝ))

/-- Python's `int(x)` on a float: truncation towards zero
(constants.py:667,668, orbit.py:471,667,669,670). -/
noncomputable def pyInt (x : ℝ) : ℤ := if 0 ≤ x then ⌊x⌋ else ⌈x⌉

/-- The `i`-th entry of `numpy.linspace(lo, hi, num)` (`num ≥ 2`; for `num = 1` the only entry is
`lo`), constants.py:669,670 and orbit.py:472,668. -/
noncomputable def linspace (lo hi : ℝ) (num i : ℕ) : ℝ :=
  if num = 1 then lo else lo + (hi - lo) * (i : ℝ) / ((num : ℝ) - 1)

/-- numpy's ordering of complex numbers: lexicographic in (real part, imaginary part). -/
def lexLe (z w : ℂ) : Prop := z.re < w.re ∨ (z.re = w.re ∧ z.im ≤ w.im)

instance : IsTrans ℂ lexLe := ⟨by
  rintro x y z (h | ⟨h, h'⟩) (k | ⟨k, k'⟩)
  · exact .inl (h.trans k)
  · exact .inl (k ▸ h)
  · exact .inl (h ▸ k)
  · exact .inr ⟨h.trans k, h'.trans k'⟩⟩

instance : Std.Antisymm lexLe := ⟨by
  rintro x y (h | ⟨h, h'⟩) (k | ⟨k, k'⟩)
  · exact absurd h (lt_asymm k)
  · exact absurd h (by rw [k]; exact lt_irrefl _)
  · exact absurd k (by rw [h]; exact lt_irrefl _)
  · exact Complex.ext h (le_antisymm h' k')⟩

instance : Std.Total lexLe := ⟨by
  intro x y
  rcases lt_trichotomy x.re y.re with h | h | h
  · exact .inl (.inl h)
  · rcases le_total x.im y.im with k | k
    · exact .inl (.inr ⟨h, k⟩)
    · exact .inr (.inr ⟨h.symm, k⟩)
  · exact .inr (.inl h)⟩

/-- `numpy.polynomial.Polynomial(c)` with coefficients in increasing degree. -/
noncomputable def npPoly (c : List ℝ) : Polynomial ℂ :=
  ∑ i : Fin c.length, Polynomial.C ((c[i] : ℝ) : ℂ) * Polynomial.X ^ (i : ℕ)

/-- `Polynomial(c).roots()`: the complex roots with multiplicity, sorted lexicographically
(numpy trims vanishing leading coefficients and returns as many roots as the trimmed degree).
constants.py:83,473,479, frequencies.py:516, initial_conditions.py:101,185,201, plunge.py:657. -/
noncomputable def npRoots (c : List ℝ) : List ℂ := (npPoly c).roots.sort lexLe

/-- `roots[np.isreal(roots)]` followed by `np.real` and `np.sort`
(constants.py:85, initial_conditions.py:104). -/
noncomputable def realRoots (roots : List ℂ) : List ℝ :=
  ((roots.filter (fun z => z.im = 0)).map Complex.re : Multiset ℝ).sort (· ≤ ·)

/-- `roots[np.iscomplex(roots)]` (constants.py:86, initial_conditions.py:105). -/
noncomputable def complexRoots (roots : List ℂ) : List ℂ := roots.filter (fun z => z.im ≠ 0)

end KGP
