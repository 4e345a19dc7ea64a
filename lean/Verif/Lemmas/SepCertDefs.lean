import Mathlib.Data.Real.Basic
import Mathlib.Tactic.Linarith
import Mathlib.Tactic.Ring
import Mathlib.Tactic.NormNum
import Mathlib.Tactic.Positivity
import Mathlib.Tactic.LinearCombination

/-!
# The separatrix polynomial, in pieces

Definitions shared by the certificate modules `SepCert*` and `SepInner*` (one module per large
certificate, so that they build in parallel).
-/

namespace KGP.SepCert

set_option maxRecDepth 100000
set_option maxHeartbeats 4000000

/-! ### The generic polynomial as a difference of products -/

/-- the pieces, as functions of `p`, `A = a²`, `e`, `w = 1 - x²` -/
def K (e : ℝ) : ℝ := (1 - e) * (1 + e) ^ 2
def g (e : ℝ) : ℝ := (3 - e) * (1 + e)
def D (p A e w : ℝ) : ℝ := p * (p ^ 2 - A * w * g e)
def G (p A e : ℝ) : ℝ := 2 * p ^ 2 * (3 + e) - 4 * (K e * A) + (A * g e) * p - p ^ 3
def H (p A e : ℝ) : ℝ := 2 * p * g e + K e * A - p ^ 2 * (3 + e)
def B (p A e w : ℝ) : ℝ := p ^ 2 * (3 + e) - K e * A * w
def N (p A e w : ℝ) : ℝ := G p A e * D p A e w + A * w * B p A e w * H p A e
def M1 (p A e w : ℝ) : ℝ := (p * g e - 2 * K e) * D p A e w + K e * A * w * B p A e w
def M2 (p A e w : ℝ) : ℝ := p ^ 3 * B p A e w - K e * A * D p A e w

/-- `(N(w) - N(1)) / (a² (1 - w))` -/
def nt (p A e w : ℝ) : ℝ :=
  p * g e * G p A e - p ^ 2 * (3 + e) * H p A e + A * K e * H p A e * (1 + w)

lemma N_split (p A e w : ℝ) : N p A e w = N p A e 1 + A * (1 - w) * nt p A e w := by
  simp only [N, nt, G, H, B, D, K, g]
  ring

/-- the polar polynomial at `a = 1` -/
def polarOne (q e : ℝ) : ℝ :=
  q ^ 5 * (-6 - 2 * e + q) + q ^ 3 * (-4 * (-1 + e) * (1 + e) ^ 2 + (3 + e * (2 + 3 * e)) * q)
    - (1 + e) ^ 2 * q * (6 + 2 * e ^ 3 + 2 * e * (-1 + q) - 3 * q - 3 * e ^ 2 * (2 + q))
    + (-1 + e) ^ 2 * (1 + e) ^ 4

end KGP.SepCert
