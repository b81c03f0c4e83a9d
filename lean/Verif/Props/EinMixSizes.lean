import Verif.Proofs.EinMixSizes
import Verif.Props.EinMix

/-!
# Declared sizes and inputs of `EinMix`

"If a call of a layer succeeds, the axes of the input have the sizes that were declared for them" is false in three ways
(below): a size is compared only if the axis is in the weight, in the bias, or the left side has a group; an `einsum` that
stretches dimensions of length 1 accepts these for weight axes; and a bias that is added to a new tensor may enlarge the
result.
-/

namespace Einops

universe u

section
variable {α : Type u} [PyUnicode] {so : Nat → SetOrder} {pattern weight : Str} {bias : Option Str} {kw : List (Str × Size)}
  {GL GR GW : List Elem} {m : EinMix α} {call : Layer α → Tensor α → Py (Tensor α)}
  {f : Str → List (Tensor α) → Py (Tensor α)} {L R : List (List Axis)} {len : AxisMap} {x w y : Tensor α}
  {b : Option (Tensor α)}

theorem mixMade_of (he : ellipsisStr ∉ kw.map Prod.fst) (hbe : ∀ s, bias = some s → '…' ∉ s) (hk : IntKw kw)
    (hpat : IsPattern pattern GL GR) (hwt : IsSide false false weight GW)
    (hm : makeEinMix so pattern weight bias kw = .ok m) (hw : w.shape = m.weightShape)
    (hb : b.map Tensor.shape = m.biasShape) : MixMade so GL GR GW bias kw m w b := by
  obtain ⟨hpe, l, r, -, hl, hr⟩ := isPattern_split hpat
  obtain ⟨GL', GR', GW', h1, h2, h3, h4, h5, -, -, -, h6⟩ := made_of_ok he (isSide_no_special hwt (by simp)) hbe hk.nodup hpe hm
  obtain ⟨rfl, rfl⟩ := isPattern_unique hpat h1
  obtain rfl := IsSide.unique hwt h2
  exact ⟨⟨l, hl⟩, ⟨r, hr⟩, ⟨weight, hwt⟩, h3, h4, h5, hk, h6, hw, hb⟩

variable [CommSemiring α]

/-- **C81**: with an `einsum` that refuses lengths that do not agree, and the bias added in place, a call succeeds exactly if
the input has the structure of the left side and the sizes that are compared are those of the input (and lengths are
determined, and the layer has a recipe for the number of dimensions).  Missing for the full statement: the other sizes. -/
theorem C81_accepted_partial (he : ellipsisStr ∉ kw.map Prod.fst) (hbe : ∀ s, bias = some s → '…' ∉ s) (hk : IntKw kw)
    (hpat : IsPattern pattern GL GR) (hwt : IsSide false false weight GW)
    (hm : makeEinMix so pattern weight bias kw = .ok m) (hcall : LayerCall call) (hf : EinsumLawful f) (hs : EinsumStrict f)
    (hw : w.shape = m.weightShape) (hb : b.map Tensor.shape = m.biasShape) :
    (∃ y, m.forward call f w b x = .ok y) ↔
    ∃ L R len, Groups GL GR x.ndim L R ∧ x.shape = L.map (groupSize len) ∧ Determinate L (kw.map Prod.fst) len ∧
      (∀ n s, (n, s) ∈ kw → SizeCompared GL GW bias n s → (len (.str n) : Int) = s.val) ∧
      ((dots ∈ sideWords GL → x.ndim < GL.length + 7) ∨ m.pre = none ∧ m.post = none) := by
  have h := mixMade_of he hbe hk hpat hwt hm hw hb
  have key : ∀ L R len, Groups GL GR x.ndim L R → x.shape = L.map (groupSize len) → Determinate L (kw.map Prod.fst) len →
      (∀ n s, (n, s) ∈ kw → SizeCompared GL GW bias n s → (len (.str n) : Int) = s.val) →
      ((∃ y, m.forward call f w b x = .ok y) ↔
        ((dots ∈ sideWords GL → x.ndim < GL.length + 7) ∨ m.pre = none ∧ m.post = none)) := by
    intro L R len hG hsh hd hc
    obtain ⟨kw', bias', GB', h1, h2, h3, h4, h5⟩ := h.relabel hG hsh hc
    obtain ⟨h6, h7⟩ := forward_result hcall hf h1 h2 (by rw [h4]; exact hd)
    rw [h.rank hG] at h6 h7
    constructor
    · rintro ⟨y, hy⟩
      by_contra hne
      rw [h7 hne] at hy
      cases hy
    · exact h6
  constructor
  · rintro ⟨y, hy⟩
    obtain ⟨L, R, len, hG, hsh, hd, hc⟩ := h.compared hcall hf hs hy
    exact ⟨L, R, len, hG, hsh, hd, hc, (key L R len hG hsh hd hc).1 ⟨y, hy⟩⟩
  · rintro ⟨L, R, len, hG, hsh, hd, hc, hr⟩
    exact (key L R len hG hsh hd hc).2 hr

/-- **C81**: and the result is the documented map for the lengths of the input, dimensions of length 1 of the bias being
stretched. -/
theorem C81_result_partial (he : ellipsisStr ∉ kw.map Prod.fst) (hbe : ∀ s, bias = some s → '…' ∉ s) (hk : IntKw kw)
    (hpat : IsPattern pattern GL GR) (hwt : IsSide false false weight GW)
    (hm : makeEinMix so pattern weight bias kw = .ok m) (hcall : LayerCall call) (hf : EinsumLawful f)
    (hw : w.shape = m.weightShape) (hb : b.map Tensor.shape = m.biasShape) (hG : Groups GL GR x.ndim L R)
    (hsh : x.shape = L.map (groupSize len))
    (hc : ∀ n s, (n, s) ∈ kw → SizeCompared GL GW bias n s → (len (.str n) : Int) = s.val)
    (hy : m.forward call f w b x = .ok y) :
    Mixes len L ((sideWords GW).map Axis.str) R x w (biasCast GR b) y := by
  obtain ⟨kw', bias', GB', h1, h2, h3, h4, h5⟩ := (mixMade_of he hbe hk hpat hwt hm hw hb).relabel hG hsh hc
  rw [← show biasAt GR GB' b = biasCast GR b from funext h5]
  exact forward_sound hcall hf h1 h2 h3 hy

/-- **C81**: if some element of the left side is not one axis, all declared sizes are compared, whatever `einsum` does and
however the bias is added. -/
theorem C81_groups (he : ellipsisStr ∉ kw.map Prod.fst) (hbe : ∀ s, bias = some s → '…' ∉ s) (hk : IntKw kw)
    (hpat : IsPattern pattern GL GR) (hwt : IsSide false false weight GW)
    (hm : makeEinMix so pattern weight bias kw = .ok m) (hcall : LayerCall call)
    (hw : w.shape = m.weightShape) (hb : b.map Tensor.shape = m.biasShape)
    (hg : ∃ e ∈ GL, (e.words.filter (fun w => decide (¬ IsNumber w))).length ≠ 1)
    (hy : m.forward call f w b x = .ok y ∨ m.forwardNew call f w b x = .ok y) :
    ∃ L R len, Groups GL GR x.ndim L R ∧ Fits L R kw x.shape len := by
  have h := mixMade_of he hbe hk hpat hwt hm hw hb
  have hpre : m.pre ≠ none := by
    intro hp
    obtain ⟨e, he, hne⟩ := hg
    exact hne (h.pre_iff.1 hp e he)
  obtain ⟨x1, h1⟩ : ∃ x1, callOpt call m.pre x = .ok x1 := by
    rcases hy with hy | hy
    · obtain ⟨x1, -, -, h1, -⟩ := forward_steps hy
      exact ⟨x1, h1⟩
    · obtain ⟨x1, -, -, h1, -⟩ := forwardNew_steps hy
      exact ⟨x1, h1⟩
  obtain ⟨L, R, len, hG, hF, -⟩ := h.pre_sizes hcall hpre h1
  exact ⟨L, R, len, hG, hF⟩

/-- **C81**: with an `einsum` that stretches dimensions of length 1 (torch), an axis of input and weight has its declared
size, unless the size is 1 or the input has length 1 there. -/
theorem C81_stretching_partial (he : ellipsisStr ∉ kw.map Prod.fst) (hbe : ∀ s, bias = some s → '…' ∉ s) (hk : IntKw kw)
    (hpat : IsPattern pattern GL GR) (hwt : IsSide false false weight GW)
    (hm : makeEinMix so pattern weight bias kw = .ok m) (hcall : LayerCall call) (hs : EinsumCasts f)
    (hw : w.shape = m.weightShape) (hb : b.map Tensor.shape = m.biasShape)
    (hy : m.forward call f w b x = .ok y ∨ m.forwardNew call f w b x = .ok y) :
    ∃ L R len, Groups GL GR x.ndim L R ∧ x.shape = L.map (groupSize len) ∧
      ∀ n s, (n, s) ∈ kw → n ∈ sideWords GL → n ∈ sideWords GW →
        (len (.str n) : Int) = s.val ∨ len (.str n) = 1 ∨ s.val = 1 := by
  have h := mixMade_of he hbe hk hpat hwt hm hw hb
  obtain ⟨x1, y0, h1, h2⟩ : ∃ x1 y0, callOpt call m.pre x = .ok x1 ∧ f m.einsumPattern [x1, w] = .ok y0 := by
    rcases hy with hy | hy
    · obtain ⟨x1, y0, -, h1, h2, -⟩ := forward_steps hy
      exact ⟨x1, y0, h1, h2⟩
    · obtain ⟨x1, y0, -, h1, h2, -⟩ := forwardNew_steps hy
      exact ⟨x1, y0, h1, h2⟩
  by_cases hpre : m.pre = none
  · rw [hpre, callOpt] at h1
    cases h1
    exact h.cast_sizes hs hpre h2
  · obtain ⟨L, R, len, hG, hF, -⟩ := h.pre_sizes hcall hpre h1
    exact ⟨L, R, len, hG, hF.shape_eq, fun n s hn _ _ => .inl (hF.kw_eq n s hn)⟩

/-- **C81**: where a layer that adds the bias in place succeeds, one that adds it to a new tensor gives the same (so the
results of C29 hold for tensorflow and flax). -/
theorem C81_new_tensor (hy : m.forward call f w b x = .ok y) : m.forwardNew call f w b x = .ok y :=
  forwardNew_of_forward hy

/-- **C81**: if the bias is added to a new tensor, a size is compared as before, except that an axis that is not in the
weight may have length 1 in the input. -/
theorem C81_new_tensor_partial (he : ellipsisStr ∉ kw.map Prod.fst) (hbe : ∀ s, bias = some s → '…' ∉ s) (hk : IntKw kw)
    (hpat : IsPattern pattern GL GR) (hwt : IsSide false false weight GW)
    (hm : makeEinMix so pattern weight bias kw = .ok m) (hcall : LayerCall call) (hf : EinsumLawful f) (hs : EinsumStrict f)
    (hw : w.shape = m.weightShape) (hb : b.map Tensor.shape = m.biasShape) (hy : m.forwardNew call f w b x = .ok y) :
    ∃ L R len, Groups GL GR x.ndim L R ∧ x.shape = L.map (groupSize len) ∧ Determinate L (kw.map Prod.fst) len ∧
      ∀ n s, (n, s) ∈ kw → SizeCompared GL GW bias n s → (len (.str n) : Int) = s.val ∨
        m.pre = none ∧ n ∉ sideWords GW ∧ len (.str n) = 1 :=
  (mixMade_of he hbe hk hpat hwt hm hw hb).compared_new hcall hf hs hy

omit [PyUnicode] in
/-- The hypotheses on `einsum` can be met: by the reference that refuses, and by one that stretches. -/
theorem C81_einsums : (EinsumLawful (refEinsum (α := α)) ∧ EinsumStrict (refEinsum (α := α))) ∧
    (EinsumLawful (castEinsum (α := α)) ∧ EinsumCasts (castEinsum (α := α))) :=
  ⟨⟨refEinsum_lawful, refEinsum_strict⟩, castEinsum_lawful, castEinsum_casts⟩

end

/-! ### Examples and witnesses -/

section
attribute [local instance] asciiUnicode

/-- a call with a given `einsum`, the bias added in place or not -/
def callMixWith (new : Bool) (f : Str → List (Tensor Int) → Py (Tensor Int)) (m : Py (EinMix Int)) (w : Tensor Int)
    (b : Option (Tensor Int)) (x : Tensor Int) : Py (Tensor Int) :=
  m.bind (fun m => if new then m.forwardNew (Layer.forwardTorch intOps) f w b x
    else m.forward (Layer.forwardTorch intOps) f w b x)

/-- `a b -> a c`, the weight is `b c`, the bias is over `a` or `c` -/
def mixABC (bias : Option String) : Py (EinMix Int) :=
  makeEinMix (fun _ => idOrder) "a b -> a c".toList "b c".toList (bias.map String.toList) [kwInt "a" 2, kwInt "b" 3, kwInt "c" 2]

def mixW32 : Tensor Int := ⟨[3, 2], [1, 2, 3, 4, 5, 6], rfl⟩

/-- The declared size `a = 2` is not compared: the input has 1. -/
theorem C81_unchecked : callMixWith false refEinsum (mixABC none) mixW32 none ⟨[1, 3], [1, 2, 3], rfl⟩ =
    .ok ⟨[1, 2], [22, 28], rfl⟩ := by rfl

/-- The declared size is `b = 3`; an `einsum` like that of torch accepts length 1 and uses the entry three times. -/
theorem C81_stretched :
    callMixWith false castEinsum (mixABC none) mixW32 none ⟨[2, 1], [1, 10], rfl⟩ = .ok ⟨[2, 2], [9, 12, 90, 120], rfl⟩ ∧
    callMixWith false refEinsum (mixABC none) mixW32 none ⟨[2, 1], [1, 10], rfl⟩ = .error .backend := by
  constructor <;> rfl

/-- The declared size is `a = 2`, the input has 1 and so has the output by the pattern; a bias over `a` added to a new
tensor makes it 2.  In place, the addition raises. -/
theorem C81_enlarged :
    callMixWith true refEinsum (mixABC (some "a")) mixW32 (some ⟨[2, 1], [100, 200], rfl⟩) ⟨[1, 3], [1, 2, 3], rfl⟩ =
      .ok ⟨[2, 2], [122, 128, 222, 228], rfl⟩ ∧
    callMixWith false refEinsum (mixABC (some "a")) mixW32 (some ⟨[2, 1], [100, 200], rfl⟩) ⟨[1, 3], [1, 2, 3], rfl⟩ =
      .error .backend := by
  constructor <;> rfl

/-- With a group on the left the same sizes are compared. -/
theorem C81_compared :
    callMixWith false castEinsum (makeEinMix (fun _ => idOrder) "(a b) -> a c".toList "b c".toList none
      [kwInt "a" 2, kwInt "b" 3, kwInt "c" 2]) mixW32 none ⟨[3], [1, 2, 3], rfl⟩ = .error .einops ∧
    callMixWith false castEinsum (makeEinMix (fun _ => idOrder) "(a b) -> a c".toList "b c".toList none
      [kwInt "a" 2, kwInt "b" 3, kwInt "c" 2]) mixW32 none ⟨[6], [1, 2, 3, 4, 5, 6], rfl⟩ =
      .ok ⟨[2, 2], [22, 28, 49, 64], rfl⟩ := by
  constructor <;> rfl

/-- A bias axis of declared size 1 is not compared either. -/
theorem C81_bias_one :
    callMixWith false refEinsum (makeEinMix (fun _ => idOrder) "a b -> a c".toList "b c".toList (some "a".toList)
      [kwInt "a" 1, kwInt "b" 3, kwInt "c" 2]) mixW32 (some ⟨[1, 1], [100], rfl⟩) ⟨[2, 3], [1, 2, 3, 4, 5, 6], rfl⟩ =
      .ok ⟨[2, 2], [122, 128, 149, 164], rfl⟩ := by rfl

theorem mixABC_pattern : IsPattern "a b -> a c".toList [word "a", word "b"] [word "a", word "c"] :=
  ⟨"a b ".toList, " a c".toList, rfl, isSide_of (by decide) (by decide) (by decide) (by decide),
    isSide_of (by decide) (by decide) (by decide) (by decide)⟩

/-- lengths of the input in `C81_unchecked` -/
def mixLen1 : AxisMap := fun a => if a = .str "b".toList then 3 else if a = .str "c".toList then 2 else 1

-- C81: the example `C81_unchecked` meets the hypotheses; `a` is not compared
example : Mixes mixLen1 [[.str "a".toList], [.str "b".toList]] [.str "b".toList, .str "c".toList]
      [[.str "a".toList], [.str "c".toList]] ⟨[1, 3], [1, 2, 3], rfl⟩ mixW32
      (biasCast [word "a", word "c"] none) ⟨[1, 2], [22, 28], rfl⟩ := by
  have h1 := C81_unchecked
  have h2 : (mixABC none).map (fun m => (m.weightShape, m.biasShape)) = .ok ([3, 2], none) := by rfl
  cases hm : mixABC none with
  | error e => rw [hm] at h2; cases h2
  | ok m =>
    rw [hm] at h1 h2
    simp only [Except.map, Except.ok.injEq, Prod.mk.injEq] at h2
    refine C81_result_partial (so := fun _ => idOrder) (weight := "b c".toList) (bias := none) (m := m)
      (call := Layer.forwardTorch intOps) (f := refEinsum) (GL := [word "a", word "b"]) (GW := [word "b", word "c"])
      (kw := [kwInt "a" 2, kwInt "b" 3, kwInt "c" 2])
      (by decide) (fun s hs => (nomatch hs)) ⟨by decide, by decide⟩ mixABC_pattern
      (isSide_of (by decide) (by decide) (by decide) (by decide)) hm
      (.inr ⟨_, rfl⟩) refEinsum_lawful (by rw [h2.1]; rfl) (by rw [h2.2]; rfl)
      ⟨0, fun _ => rfl, by decide, by decide, rfl⟩ (by decide) ?_ h1
    intro n s hn hc
    simp only [List.mem_cons, List.not_mem_nil, or_false, kwInt, Prod.mk.injEq] at hn
    rcases hn with ⟨rfl, rfl⟩ | ⟨rfl, rfl⟩ | ⟨rfl, rfl⟩
    · exfalso
      rcases hc with hc | hc | ⟨-, t, GB, hc, -⟩
      · revert hc; decide
      · revert hc; decide
      · cases hc
    · decide
    · decide

end

end Einops
