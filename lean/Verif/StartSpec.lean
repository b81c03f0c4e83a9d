import Verif.EinMixParams
import Mathlib.Analysis.SpecialFunctions.Integrals.Basic

/-!
# Specification of starting values: expectation and variance of a uniform distribution
-/

namespace Einops

/-- expectation of a function of a uniformly distributed number -/
noncomputable def Uniform.expect (u : Uniform) (f : ℝ → ℝ) : ℝ := (∫ t in u.lo..u.hi, f t) / (u.hi - u.lo)

noncomputable def Uniform.mean (u : Uniform) : ℝ := u.expect id

noncomputable def Uniform.variance (u : Uniform) : ℝ := u.expect fun t => (t - u.mean) ^ 2

end Einops
