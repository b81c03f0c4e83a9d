import Verif.EinMix
import Mathlib.Analysis.Real.Sqrt

/-!
# Starting values of the parameters of `EinMix`

Real numbers instead of floating point.
-/

namespace Einops

universe u
variable {α : Type u}

/-- a uniform distribution between two numbers -/
structure Uniform where
  lo : ℝ
  hi : ℝ

/-- `weight_bound = (3 / _fan_in) ** 0.5` (_einmix.py:160) -/
noncomputable def EinMix.weightBound (m : EinMix α) : ℝ := Real.sqrt (3 / m.fanIn)

/-- `bias_bound = (1 / _fan_in) ** 0.5` (_einmix.py:161) -/
noncomputable def EinMix.biasBound (m : EinMix α) : ℝ := Real.sqrt (1 / m.fanIn)

/-- the frameworks with `EinMix` layers -/
inductive LayerLib
  | torch | oneflow | paddle | tensorflow | flax
  deriving DecidableEq, Repr

/-- The distribution that `_create_parameters` draws from, given the bound: `uniform_(-bound, bound)`
(layers/torch.py:35,39, oneflow.py:24,27), `initializer.Uniform(-bound, bound)` (paddle.py:24,29),
`random_uniform_initializer(-bound, bound)` (tensorflow.py:74,81) and `jax.nn.initializers.uniform(bound)`
(flax.py:52,55), which draws from `[0, bound)`. -/
def LayerLib.start (l : LayerLib) (bound : ℝ) : Uniform :=
  match l with
  | .torch => ⟨-bound, bound⟩
  | .oneflow => ⟨-bound, bound⟩
  | .paddle => ⟨-bound, bound⟩
  | .tensorflow => ⟨-bound, bound⟩
  | .flax => ⟨0, bound⟩

end Einops
