import Verif.Proofs.EinsumLaws

/-!
# Laws of the map computed by `EinMix`
-/

namespace Einops

universe u
variable {α : Type u} [CommSemiring α]

theorem Mixes.unique {len : AxisMap} {L R : List (List Axis)} {W : List Axis} {x w y y' : Tensor α} {c : AxisMap → α}
    (hn : R.flatten.Nodup) (h : Mixes len L W R x w c y) (h' : Mixes len L W R x w c y') : y = y' := by
  apply ext_axes hn h.1 h'.1
  intro env henv
  obtain ⟨S, hS, hm⟩ := summed_exists [L.flatten, W] R.flatten
  have hm' : ∀ a, a ∈ S ↔ (a ∈ L.flatten ∨ a ∈ W) ∧ a ∉ R.flatten := fun a => by rw [hm]; simp
  rw [h.2 S hS hm' env henv, h'.2 S hS hm' env henv]

/-- the map in terms of entries -/
theorem mixes_iff {len : AxisMap} {L R : List (List Axis)} {W : List Axis} {x w y : Tensor α} {c : AxisMap → α} :
    Mixes len L W R x w c y ↔ y.shape = R.map (groupSize len) ∧
      ∀ S : List Axis, S.Nodup → (∀ a, a ∈ S ↔ (a ∈ L.flatten ∨ a ∈ W) ∧ a ∉ R.flatten) →
        ∀ env, InRange len R.flatten env → entry y (R.map (groupPos len env)) =
          ((loops len S env).map (fun e => entry x (L.map (groupPos len e)) * entry w (W.map e))).sum + c env := by
  have key : y.shape = R.map (groupSize len) → ∀ env, InRange len R.flatten env →
      y.atAxes R len env = some (entry y (R.map (groupPos len env))) := by
    intro hs env henv
    obtain ⟨v, hv⟩ := y.at?_isSome (i := R.map (groupPos len env)) (by rw [hs]; exact inBounds_groups henv)
    rw [Tensor.atAxes, entry, hv]; rfl
  constructor
  · rintro ⟨h1, h2⟩
    refine ⟨h1, fun S hS hm env henv => ?_⟩
    have := h2 S hS hm env henv
    rw [key h1 env henv] at this
    exact Option.some.inj this
  · rintro ⟨h1, h2⟩
    refine ⟨h1, fun S hS hm env henv => ?_⟩
    rw [key h1 env henv, h2 S hS hm env henv]; rfl

theorem Mixes.add_input {len : AxisMap} {L R : List (List Axis)} {W : List Axis} {x x' w y y' : Tensor α}
    {c c' : AxisMap → α} (hx : x'.shape = x.shape) (hy : y'.shape = y.shape)
    (h : Mixes len L W R x w c y) (h' : Mixes len L W R x' w c' y') :
    Mixes len L W R (x.zipWith (· + ·) x' hx) w (fun e => c e + c' e) (y.zipWith (· + ·) y' hy) := by
  rw [mixes_iff] at h h' ⊢
  refine ⟨h.1, fun S hS hm env henv => ?_⟩
  rw [entry_zip_add, h.2 S hS hm env henv, h'.2 S hS hm env henv, add_add_add_comm, ← List.sum_map_add]
  congr 3
  funext e
  rw [entry_zip_add, add_mul]

theorem Mixes.add_weight {len : AxisMap} {L R : List (List Axis)} {W : List Axis} {x w w' y y' : Tensor α}
    {c c' : AxisMap → α} (hw : w'.shape = w.shape) (hy : y'.shape = y.shape)
    (h : Mixes len L W R x w c y) (h' : Mixes len L W R x w' c' y') :
    Mixes len L W R x (w.zipWith (· + ·) w' hw) (fun e => c e + c' e) (y.zipWith (· + ·) y' hy) := by
  rw [mixes_iff] at h h' ⊢
  refine ⟨h.1, fun S hS hm env henv => ?_⟩
  rw [entry_zip_add, h.2 S hS hm env henv, h'.2 S hS hm env henv, add_add_add_comm, ← List.sum_map_add]
  congr 3
  funext e
  rw [entry_zip_add, mul_add]

theorem Mixes.smul_input {len : AxisMap} {L R : List (List Axis)} {W : List Axis} {x w y : Tensor α} {c : AxisMap → α} (k : α)
    (h : Mixes len L W R x w c y) : Mixes len L W R (x.map (k * ·)) w (fun e => k * c e) (y.map (k * ·)) := by
  rw [mixes_iff] at h ⊢
  refine ⟨h.1, fun S hS hm env henv => ?_⟩
  rw [entry_map_mul, h.2 S hS hm env henv, mul_add, ← List.sum_map_mul_left]
  congr 3
  funext e
  rw [entry_map_mul, mul_assoc]

theorem Mixes.smul_weight {len : AxisMap} {L R : List (List Axis)} {W : List Axis} {x w y : Tensor α} {c : AxisMap → α} (k : α)
    (h : Mixes len L W R x w c y) : Mixes len L W R x (w.map (k * ·)) (fun e => k * c e) (y.map (k * ·)) := by
  rw [mixes_iff] at h ⊢
  refine ⟨h.1, fun S hS hm env henv => ?_⟩
  rw [entry_map_mul, h.2 S hS hm env henv, mul_add, ← List.sum_map_mul_left]
  congr 3
  funext e
  rw [entry_map_mul, mul_left_comm]

end Einops
