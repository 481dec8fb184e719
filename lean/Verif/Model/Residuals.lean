import Mathlib.Data.Real.Basic
import Mathlib.Algebra.Order.Group.Abs

/-!
# `ResidualDetails` (`/repo/src/logic/residualdetails.py`) and voltage limiting (`/repo/src/logic/v_limiting.py`)

Vectors of length `n` are functions `ℕ → ℝ` of which only the entries below `n` are used.
-/

namespace Verif

/-- `self.residuals[index] += value` (`residualdetails.py` 8). -/
def addAt (r : ℕ → ℝ) (e : ℕ × ℝ) : ℕ → ℝ := fun i => if i = e.1 then r i + e.2 else r i

/-- The loop of `residualdetails.py` 7-8, starting from zeros. An index beyond the vector (python IndexError) is
outside the modelled range. -/
def residualVector (cs : List (ℕ × ℝ)) : ℕ → ℝ := cs.foldl addAt fun _ => 0

/-- `np.amax` of the values at indices `0 … n` (`residualdetails.py` 10). -/
noncomputable def amax (f : ℕ → ℝ) : ℕ → ℝ
  | 0 => f 0
  | n + 1 => max (amax f n) (f (n + 1))

/-- `np.argmax` of the values at indices `0 … n` (`residualdetails.py` 11): the first index of the maximum. -/
noncomputable def argmax (f : ℕ → ℝ) : ℕ → ℕ
  | 0 => 0
  | n + 1 => if amax f n < f (n + 1) then n + 1 else argmax f n

/-- `ResidualDetails` (`residualdetails.py` 3-12). -/
structure ResidualDetails where
  contributions : List (ℕ × ℝ)
  residuals : ℕ → ℝ
  maxResidual : ℝ
  maxResidualIdx : ℕ

/-- `ResidualDetails.__init__` (`residualdetails.py` 4-12); `np.amax` raises for an empty vector. -/
noncomputable def ResidualDetails.make (cs : List (ℕ × ℝ)) : ℕ → Except String ResidualDetails
  | 0 => .error "zero-size array to reduction operation maximum which has no identity"
  | n + 1 =>
    let r := residualVector cs
    .ok ⟨cs, r, amax (fun i => |r i|) n, argmax (fun i => |r i|) n⟩

/-! ### Voltage limiting -/

/-- `np.clip` (`v_limiting.py` 28-29). -/
noncomputable def clip (x lo hi : ℝ) : ℝ := min (max x lo) hi

/-- `try_create_mask` (`v_limiting.py` 14-21): the real and imaginary voltage columns of all buses. The version
shortcut of line 15 never applies: `self.version` stays `None` (line 12) and `matrix_version` is a number
(`networkmodel.py` 46). -/
def busMask (buses : List (ℕ × ℕ)) (i : ℕ) : Bool := buses.any fun b => b.1 = i || b.2 = i

/-- `apply_limiting` (`v_limiting.py` 23-33) with `V_DIFF_MAX = 1`, `V_MAX = 2`, `V_MIN = -2` (5-7). -/
noncomputable def applyLimiting (buses : List (ℕ × ℕ)) (vNext vPrev : ℕ → ℝ) : ℕ → ℝ := fun i =>
  if busMask buses i then clip (vPrev i + clip (vNext i - vPrev i) (-1) 1) (-2) 2 else vNext i

end Verif
