import Verif.StartSpec

/-!
# The distribution of the starting values of `EinMix`
-/

namespace Einops

universe u

section
variable {α : Type u}

theorem expect_id (u : Uniform) (h : u.lo < u.hi) : u.mean = (u.lo + u.hi) / 2 := by
  have : u.hi - u.lo ≠ 0 := sub_ne_zero.2 h.ne'
  unfold Uniform.mean Uniform.expect
  simp only [id, integral_id]
  field_simp
  ring

theorem variance_eq (u : Uniform) (h : u.lo < u.hi) : u.variance = (u.hi - u.lo) ^ 2 / 12 := by
  have h0 : u.hi - u.lo ≠ 0 := sub_ne_zero.2 h.ne'
  unfold Uniform.variance
  rw [expect_id u h]
  unfold Uniform.expect
  rw [intervalIntegral.integral_comp_sub_right (fun t => t ^ 2)]
  rw [integral_pow]
  field_simp
  ring

/-- **C60** With the layers of torch, oneflow, paddle and tensorflow the weights start with expectation 0 and variance
`1 / fan_in` (so that a sum of `fan_in` products with independent inputs of variance 1 has variance 1), the bias with
expectation 0 and variance `1 / (3 fan_in)`. -/
theorem C60_start (m : EinMix α) (hm : 0 < m.fanIn) (l : LayerLib) (hl : l ≠ .flax) :
    (l.start m.weightBound).mean = 0 ∧ (l.start m.weightBound).variance * m.fanIn = 1 ∧
    (l.start m.biasBound).mean = 0 ∧ (l.start m.biasBound).variance * (3 * m.fanIn) = 1 := by
  have hf : (0 : ℝ) < m.fanIn := by exact_mod_cast hm
  have hst : ∀ c, l.start c = ⟨-c, c⟩ := by
    intro c
    cases l <;> first | rfl | exact absurd rfl hl
  have h1 : 0 < m.weightBound := Real.sqrt_pos.2 (by positivity)
  have h2 : 0 < m.biasBound := Real.sqrt_pos.2 (by positivity)
  have e1 : m.weightBound ^ 2 = 3 / m.fanIn := Real.sq_sqrt (by positivity)
  have e2 : m.biasBound ^ 2 = 1 / m.fanIn := Real.sq_sqrt (by positivity)
  rw [hst, hst, expect_id _ (by simpa using by linarith), variance_eq _ (by simpa using by linarith),
    expect_id _ (by simpa using by linarith), variance_eq _ (by simpa using by linarith)]
  simp only
  refine ⟨by ring, ?_, by ring, ?_⟩
  · rw [show (m.weightBound - -m.weightBound) ^ 2 = 4 * m.weightBound ^ 2 by ring, e1]
    field_simp
    norm_num
  · rw [show (m.biasBound - -m.biasBound) ^ 2 = 4 * m.biasBound ^ 2 by ring, e2]
    field_simp
    norm_num

/-- With flax the weights start with a positive expectation and a quarter of that variance: none of them is negative. -/
theorem C60_flax (m : EinMix α) (hm : 0 < m.fanIn) :
    0 < (LayerLib.flax.start m.weightBound).mean ∧ (LayerLib.flax.start m.weightBound).variance * (4 * m.fanIn) = 1 := by
  have hf : (0 : ℝ) < m.fanIn := by exact_mod_cast hm
  have h1 : 0 < m.weightBound := Real.sqrt_pos.2 (by positivity)
  have e1 : m.weightBound ^ 2 = 3 / m.fanIn := Real.sq_sqrt (by positivity)
  rw [show LayerLib.flax.start m.weightBound = ⟨0, m.weightBound⟩ from rfl, expect_id _ h1, variance_eq _ h1]
  simp only
  refine ⟨by linarith, ?_⟩
  rw [sub_zero, e1]
  field_simp
  norm_num

end

-- 12 input elements: weights start between -1/2 and 1/2
example : (⟨none, none, [12], none, [], 12⟩ : EinMix Int).weightBound = 1 / 2 := by
  rw [EinMix.weightBound, Real.sqrt_eq_iff_mul_self_eq (by norm_num) (by norm_num)]
  norm_num

end Einops
