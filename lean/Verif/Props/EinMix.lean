import Verif.Proofs.EinMixForward
import Verif.Props.Einsum

/-!
# `EinMix`
-/

namespace Einops

universe u

section
variable {α : Type u} [PyUnicode] {so : Nat → SetOrder} {pattern weight : Str} {bias : Option Str} {kw : List (Str × Size)}
  {GL GR GW : List Elem} {m : EinMix α}

/-! ### C30 -/

/-- Without exactly one arrow the constructor raises ValueError. -/
theorem C30_arrow (h : ¬ ∃ l r, pattern = l ++ arrow ++ r ∧ ¬ arrow <:+: l ∧ ¬ arrow <:+: r) :
    (makeEinMix so pattern weight bias kw : Py (EinMix α)) = .error .value :=
  makeEinMix_bad_arrow so h weight bias kw

/-- With one arrow, EinopsError unless both sides and the weight are legal and obey the rules. -/
theorem C30_sides (hp : '…' ∉ pattern) (hw : '…' ∉ weight) (he : ellipsisStr ∉ kw.map Prod.fst)
    (ha : ∃ l r, pattern = l ++ arrow ++ r ∧ ¬ arrow <:+: l ∧ ¬ arrow <:+: r)
    (h : ¬ ∃ GL GR GW, IsPattern pattern GL GR ∧ IsSide false false weight GW ∧ EinmixSides GL GR GW (kw.map Prod.fst)) :
    (makeEinMix so pattern weight bias kw : Py (EinMix α)) = .error .einops := by
  obtain ⟨l, r, h1, h2, h3⟩ := ha
  exact makeEinMix_sides so hp hw (splitArrow_iff.2 ⟨h1, h2, h3⟩) he h bias

/-- All other outcomes of the constructor. -/
theorem C30_outcome (he : ellipsisStr ∉ kw.map Prod.fst) (hb : ∀ s, bias = some s → '…' ∉ s)
    (hk : (kw.map Prod.fst).Nodup) (hpat : IsPattern pattern GL GR) (hwt : IsSide false false weight GW)
    (hs : EinmixSides GL GR GW (kw.map Prod.fst)) :
    (¬ NoUnits GW → (makeEinMix so pattern weight bias kw : Py (EinMix α)) = .error .value) ∧
    (NoUnits GW → ¬ BiasLegal GR (kw.map Prod.fst) bias →
      (makeEinMix so pattern weight bias kw : Py (EinMix α)) = .error .einops) ∧
    (NoUnits GW → BiasLegal GR (kw.map Prod.fst) bias → ¬ FanInOK GR GW kw →
      (makeEinMix so pattern weight bias kw : Py (EinMix α)) = .error .zeroDivision) ∧
    (NoUnits GW → BiasLegal GR (kw.map Prod.fst) bias → FanInOK GR GW kw → ¬ LengthsOK GW bias kw →
      (makeEinMix so pattern weight bias kw : Py (EinMix α)) = .error .backend) ∧
    (NoUnits GW → BiasLegal GR (kw.map Prod.fst) bias → FanInOK GR GW kw → LengthsOK GW bias kw → ¬ LettersOK GL GR GW →
      (makeEinMix so pattern weight bias kw : Py (EinMix α)) = .error .key) ∧
    (NoUnits GW → BiasLegal GR (kw.map Prod.fst) bias → FanInOK GR GW kw → LengthsOK GW bias kw → LettersOK GL GR GW →
      ∃ m : EinMix α, makeEinMix so pattern weight bias kw = .ok m ∧
        ParamShapes GR GW bias kw m.weightShape m.biasShape) := by
  obtain ⟨h1, h2, h3⟩ := makeEinMix_outcome (α := α) so hpat hwt hk hs he hb rfl
  refine ⟨h1, h2, fun a b => (h3 a b).1, fun a b => (h3 a b).2.1, fun a b => (h3 a b).2.2.1, fun a b c d e => ?_⟩
  obtain ⟨m, h4, h5⟩ := (h3 a b).2.2.2 c d e
  exact ⟨m, h4, h5.params⟩

theorem made_of_ok (he : ellipsisStr ∉ kw.map Prod.fst) (hw : '…' ∉ weight) (hb : ∀ s, bias = some s → '…' ∉ s)
    (hk : (kw.map Prod.fst).Nodup) (hp : '…' ∉ pattern) (h : makeEinMix so pattern weight bias kw = .ok m) :
    ∃ GL GR GW, IsPattern pattern GL GR ∧ IsSide false false weight GW ∧ EinmixSides GL GR GW (kw.map Prod.fst) ∧
      NoUnits GW ∧ BiasLegal GR (kw.map Prod.fst) bias ∧ FanInOK GR GW kw ∧ LengthsOK GW bias kw ∧ LettersOK GL GR GW ∧
      Made so GL GR GW bias kw m := by
  by_cases ha : ∃ l r, pattern = l ++ arrow ++ r ∧ ¬ arrow <:+: l ∧ ¬ arrow <:+: r
  swap
  · rw [C30_arrow ha] at h; cases h
  by_cases hs : ∃ GL GR GW, IsPattern pattern GL GR ∧ IsSide false false weight GW ∧ EinmixSides GL GR GW (kw.map Prod.fst)
  swap
  · rw [C30_sides hp hw he ha hs] at h; cases h
  obtain ⟨GL, GR, GW, h1, h2, h3⟩ := hs
  obtain ⟨h4, h5, h6⟩ := makeEinMix_outcome (α := α) so h1 h2 hk h3 he hb h
  have hu : NoUnits GW := by by_contra hc; cases h4 hc
  have hbl : BiasLegal GR (kw.map Prod.fst) bias := by by_contra hc; cases h5 hu hc
  obtain ⟨h7, h8, h9, h10⟩ := h6 hu hbl
  have hfan : FanInOK GR GW kw := by by_contra hc; cases h7 hc
  have hlen : LengthsOK GW bias kw := by by_contra hc; cases h8 hfan hc
  have hlet : LettersOK GL GR GW := by by_contra hc; cases h9 hfan hlen hc
  obtain ⟨m', h11, h12⟩ := h10 hfan hlen hlet
  cases h11
  exact ⟨GL, GR, GW, h1, h2, h3, hu, hbl, hfan, hlen, hlet, h12⟩

/-- **C30**: a layer is constructed exactly under these conditions. -/
theorem C30_constructed (he : ellipsisStr ∉ kw.map Prod.fst) (hw : '…' ∉ weight) (hb : ∀ s, bias = some s → '…' ∉ s)
    (hk : (kw.map Prod.fst).Nodup) (hp : '…' ∉ pattern) :
    (∃ m : EinMix α, makeEinMix so pattern weight bias kw = .ok m) ↔
    ∃ GL GR GW, IsPattern pattern GL GR ∧ IsSide false false weight GW ∧ EinmixSides GL GR GW (kw.map Prod.fst) ∧
      NoUnits GW ∧ BiasLegal GR (kw.map Prod.fst) bias ∧ FanInOK GR GW kw ∧ LengthsOK GW bias kw ∧ LettersOK GL GR GW := by
  constructor
  · rintro ⟨m, h⟩
    obtain ⟨GL, GR, GW, h1, h2, h3, h4, h5, h6, h7, h8, -⟩ := made_of_ok he hw hb hk hp h
    exact ⟨GL, GR, GW, h1, h2, h3, h4, h5, h6, h7, h8⟩
  · rintro ⟨GL, GR, GW, h1, h2, h3, h4, h5, h6, h7, h8⟩
    obtain ⟨m, h, -⟩ := (C30_outcome (α := α) (so := so) he hb hk h1 h2 h3).2.2.2.2.2 h4 h5 h6 h7 h8
    exact ⟨m, h⟩

/-- **C30**: the shapes of weight and bias. -/
theorem C30_shapes (he : ellipsisStr ∉ kw.map Prod.fst) (hw : '…' ∉ weight) (hb : ∀ s, bias = some s → '…' ∉ s)
    (hk : (kw.map Prod.fst).Nodup) (hpat : IsPattern pattern GL GR) (hwt : IsSide false false weight GW)
    (h : makeEinMix so pattern weight bias kw = .ok m) : ParamShapes GR GW bias kw m.weightShape m.biasShape := by
  obtain ⟨GL', GR', GW', h1, h2, -, -, -, -, -, -, h3⟩ := made_of_ok he hw hb hk (isPattern_split hpat).1 h
  obtain ⟨rfl, rfl⟩ := isPattern_unique hpat h1
  rw [← IsSide.unique hwt h2] at h3
  exact h3.params

/-- **C30**: refused are a weight axis or a bias axis without size, a weight axis that occurs nowhere, a bias axis that is
not in the output, and a size for an axis that does not occur. -/
theorem C30_refuses (he : ellipsisStr ∉ kw.map Prod.fst) (hw : '…' ∉ weight) (hb : ∀ s, bias = some s → '…' ∉ s)
    (hk : (kw.map Prod.fst).Nodup) (hpat : IsPattern pattern GL GR) (hwt : IsSide false false weight GW)
    (h : (∃ w ∈ axisWords GW, w ∉ kw.map Prod.fst) ∨ (∃ w ∈ axisWords GW, w ∉ sideWords GL ∧ w ∉ sideWords GR) ∨
      (∃ n ∈ kw.map Prod.fst, n ∉ sideWords GL ∧ n ∉ sideWords GW) ∨
      ∃ t GB, bias = some t ∧ IsSide false false t GB ∧
        ((∃ w ∈ axisWords GB, w ∉ kw.map Prod.fst) ∨ ∃ w ∈ axisWords GB, w ∉ sideWords GR)) :
    ¬ ∃ m : EinMix α, makeEinMix so pattern weight bias kw = .ok m := by
  rintro ⟨m, hm⟩
  obtain ⟨GL', GR', GW', h1, h2, h3, -, h4, -⟩ := made_of_ok he hw hb hk (isPattern_split hpat).1 hm
  obtain ⟨rfl, rfl⟩ := isPattern_unique hpat h1
  rw [← IsSide.unique hwt h2] at h3
  rcases h with ⟨w, h5, h6⟩ | ⟨w, h5, h6, h7⟩ | ⟨n, h5, h6, h7⟩ | ⟨t, GB, h5, h6, h7⟩
  · exact h6 (h3.weight_sized w h5)
  · exact (h3.weight_used w h5).elim h6 h7
  · rcases h3.sizes_used n h5 with h | h
    · exact h6 (mem_nameWords.1 h).1
    · exact h7 (mem_nameWords.1 h).1
  · obtain ⟨GB', h8, h9⟩ := h4 t h5
    rw [← IsSide.unique h6 h8] at h9
    rcases h7 with ⟨w, h10, h11⟩ | ⟨w, h10, h11⟩
    · exact h11 (h9.sized w h10)
    · exact h11 (h9.in_output w h10)

/-! ### C29 -/

section forward
variable [CommSemiring α] {GB : List Elem} {call : Layer α → Tensor α → Py (Tensor α)}
  {f : Str → List (Tensor α) → Py (Tensor α)} {L R : List (List Axis)} {len : AxisMap} {x w y : Tensor α}
  {b : Option (Tensor α)}

omit [CommSemiring α] in
theorem mixCall_of (he : ellipsisStr ∉ kw.map Prod.fst) (hk : IntKw kw) (hpat : IsPattern pattern GL GR)
    (hwt : IsSide false false weight GW) (hbt : ∀ t, bias = some t → IsSide false false t GB)
    (hm : makeEinMix so pattern weight bias kw = .ok m) (hG : Groups GL GR x.ndim L R) (hF : Fits L R kw x.shape len)
    (hw : w.shape = m.weightShape) (hb : b.map Tensor.shape = m.biasShape) :
    MixCall GL GR GW bias kw m L R len x w b ∧ Made so GL GR GW bias kw m := by
  have hbe : ∀ s, bias = some s → '…' ∉ s := fun s hs => isSide_no_special (hbt s hs) (by simp)
  obtain ⟨hpe, l, r, -, hl, hr⟩ := isPattern_split hpat
  obtain ⟨GL', GR', GW', h1, h2, h3, h4, h5, -, -, -, h6⟩ := made_of_ok he (isSide_no_special hwt (by simp)) hbe hk.nodup hpe hm
  obtain ⟨rfl, rfl⟩ := isPattern_unique hpat h1
  obtain rfl := IsSide.unique hwt h2
  exact ⟨⟨⟨l, hl⟩, ⟨r, hr⟩, ⟨weight, hwt⟩, h3, h4, h5, hk, hG, hF, hw, hb⟩, h6⟩

/-- **C29**: an EinMix layer computes the documented linear map. -/
theorem C29_output (he : ellipsisStr ∉ kw.map Prod.fst) (hk : IntKw kw) (hpat : IsPattern pattern GL GR)
    (hwt : IsSide false false weight GW) (hbt : ∀ t, bias = some t → IsSide false false t GB)
    (hm : makeEinMix so pattern weight bias kw = .ok m) (hcall : LayerCall call) (hf : EinsumLawful f)
    (hG : Groups GL GR x.ndim L R) (hF : Fits L R kw x.shape len)
    (hw : w.shape = m.weightShape) (hb : b.map Tensor.shape = m.biasShape) (hy : m.forward call f w b x = .ok y) :
    Mixes len L ((sideWords GW).map Axis.str) R x w (biasAt GR GB b) y := by
  obtain ⟨h1, h2⟩ := mixCall_of he hk hpat hwt hbt hm hG hF hw hb
  exact forward_sound hcall hf h1 h2 hbt hy

/-- The call succeeds if the lengths are determined, and the ellipsis stands for at most 7 dimensions or the layer has no
rearrangements; in the other case it raises KeyError. -/
theorem C29_succeeds (he : ellipsisStr ∉ kw.map Prod.fst) (hk : IntKw kw) (hpat : IsPattern pattern GL GR)
    (hwt : IsSide false false weight GW) (hbt : ∀ t, bias = some t → IsSide false false t GB)
    (hm : makeEinMix so pattern weight bias kw = .ok m) (hcall : LayerCall call) (hf : EinsumLawful f)
    (hG : Groups GL GR x.ndim L R) (hF : Fits L R kw x.shape len)
    (hw : w.shape = m.weightShape) (hb : b.map Tensor.shape = m.biasShape)
    (hd : Determinate L (kw.map Prod.fst) len) :
    ((dots ∈ sideWords GL → x.ndim < GL.length + 7) ∨ m.pre = none ∧ m.post = none →
      ∃ y, m.forward call f w b x = .ok y) ∧
    (¬ ((dots ∈ sideWords GL → x.ndim < GL.length + 7) ∨ m.pre = none ∧ m.post = none) →
      m.forward call f w b x = .error .key) := by
  obtain ⟨h1, h2⟩ := mixCall_of he hk hpat hwt hbt hm hG hF hw hb
  have hr : LayerRank GL x.ndim ↔ (dots ∈ sideWords GL → x.ndim < GL.length + 7) := by
    obtain ⟨l, hl⟩ := h1.left
    obtain ⟨n, h3, h4, -, h5⟩ := hG
    have h6 := spread_length (side := 0) (k := 0) (G := GL) (ellAxes n)
    rw [bare_count_of hl.one_ellipsis h1.sides.ellipsis_left, show (ellAxes n).length = n by simp [ellAxes], ← h4, h5] at h6
    unfold LayerRank
    by_cases hd : dots ∈ sideWords GL
    · rw [if_pos hd] at h6 ⊢
      have : 1 ≤ GL.length := by
        rw [Nat.one_le_iff_ne_zero, Ne, List.length_eq_zero_iff]
        rintro rfl
        simp [sideWords] at hd
      simp only [hd, true_implies]
      omega
    · rw [if_neg hd] at h6 ⊢
      simp only [hd, false_implies, iff_true]
      omega
  rw [← hr]
  exact forward_result hcall hf h1 h2 hd

omit [CommSemiring α] in
/-- When the layer has rearrangements: before the contraction if an element of the left side is not one axis; after it if
an element of the right side is not one axis, or the ellipsis is in parentheses. -/
theorem C29_rearrangements (he : ellipsisStr ∉ kw.map Prod.fst) (hw : '…' ∉ weight) (hb : ∀ s, bias = some s → '…' ∉ s)
    (hk : (kw.map Prod.fst).Nodup) (hpat : IsPattern pattern GL GR) (h : makeEinMix so pattern weight bias kw = .ok m) :
    (m.pre = none ↔ ∀ e ∈ GL, (e.words.filter (fun w => decide (¬ IsNumber w))).length = 1) ∧
    (m.post = none ↔ (∀ e ∈ GR, (e.words.filter (fun w => decide (¬ IsNumber w))).length = 1) ∧
      ∀ ws, Elem.paren ws ∈ GR → dots ∉ ws) := by
  obtain ⟨GL', GR', GW', h1, -, -, -, -, -, -, -, h2⟩ := made_of_ok he hw hb hk (isPattern_split hpat).1 h
  obtain ⟨rfl, rfl⟩ := isPattern_unique hpat h1
  have key : ∀ G : List Elem, hasNonSingle (G.map unitComp) = false ↔
      ∀ e ∈ G, (e.words.filter (fun w => decide (¬ IsNumber w))).length = 1 := by
    intro G
    unfold hasNonSingle
    rw [List.any_eq_false]
    constructor
    · intro h e he
      have := h _ (List.mem_map.2 ⟨e, he, rfl⟩)
      rw [unitComp_axes, flatMap_unitAxes, List.length_map] at this
      by_contra hc
      exact this (decide_eq_true hc)
    · intro h c hc
      obtain ⟨e, he, rfl⟩ := List.mem_map.1 hc
      rw [unitComp_axes, flatMap_unitAxes, List.length_map, h e he]
      decide
  rw [← key, ← key]
  constructor
  · rcases h2.pre with ⟨h3, h4⟩ | ⟨l, pat, h3, -, -, h4⟩
    · simp [h3, h4]
    · simp [h3, h4]
  · rcases h2.post with ⟨h3, h4, h5⟩ | ⟨l, pat, h3, -, -, h4⟩
    · simp only [h3, h4, true_and, true_iff]; exact h5
    · simp only [h3, reduceCtorEq, false_iff, not_and]
      intro h6 h7
      rcases h4 with h4 | ⟨ws, h4, h5⟩
      · rw [h4] at h6; cases h6
      · exact h7 ws h4 h5

end forward

end

/-! ### Examples and witnesses -/

section
attribute [local instance] asciiUnicode

/-- a call of a layer of natural numbers, of the framework numpy-like with the reference einsum -/
def callMix (m : Py (EinMix Int)) (w : Tensor Int) (b : Option (Tensor Int)) (x : Tensor Int) : Py (Tensor Int) :=
  m.bind (fun m => m.forward (Layer.forwardTorch intOps) refEinsum w b x)

/-- a composite input dimension, an ellipsis in parentheses in the output, a bias -/
def mixEx : Py (EinMix Int) :=
  makeEinMix (fun _ => idOrder) "t (h c) ... -> (... 1 h) d t".toList "h c d".toList (some "d".toList)
    [kwInt "h" 2, kwInt "c" 3, kwInt "d" 2]

example : mixEx.map (fun m => (m.weightShape, m.biasShape, m.einsumPattern, m.pre.isSome, m.post.isSome)) =
    .ok ([2, 3, 2], some [1, 2, 1], "dca...,cab->...cbd".toList, true, true) := by rfl

/-- input and parameters for it -/
def mixX : Tensor Int := ⟨[1, 6, 2], [0, 1, 2, 3, 4, 5, 6, 7, 8, 9, 10, 11], rfl⟩
def mixW : Tensor Int := ⟨[2, 3, 2], [1, 2, 3, 4, 5, 6, 7, 8, 9, 10, 11, 12], rfl⟩
def mixB : Tensor Int := ⟨[1, 2, 1], [10, 100], rfl⟩

def mixY : Tensor Int := ⟨[4, 2, 1], [36, 132, 234, 348, 45, 144, 261, 378], rfl⟩

theorem mix_result : callMix mixEx mixW (some mixB) mixX = .ok mixY := by rfl

theorem mix_shapes : mixEx.map (fun m => (m.weightShape, m.biasShape)) = .ok ([2, 3, 2], some [1, 2, 1]) := by rfl

def word (s : String) : Elem := .bare s.toList

theorem mix_left : IsSide false false "t (h c) ... ".toList [word "t", .paren ["h".toList, "c".toList], word "..."] :=
  isSide_of (by decide) (by decide) (by decide) (by decide)

theorem mix_right : IsSide false false " (... 1 h) d t".toList
    [.paren ["...".toList, "1".toList, "h".toList], word "d", word "t"] :=
  isSide_of (by decide) (by decide) (by decide) (by decide)

theorem mix_pattern : IsPattern "t (h c) ... -> (... 1 h) d t".toList
    [word "t", .paren ["h".toList, "c".toList], word "..."] [.paren ["...".toList, "1".toList, "h".toList], word "d", word "t"] :=
  ⟨_, _, rfl, mix_left, mix_right⟩

/-- lengths of the axes in the example -/
def mixLen : AxisMap := fun a =>
  if a = .str "h".toList then 2 else if a = .str "c".toList then 3 else if a = .str "d".toList then 2
  else if a = .str "t".toList then 1 else 2

-- C29: the example meets the hypotheses
example : Mixes mixLen [[.str "t".toList], [.str "h".toList, .str "c".toList], ellAxes 1]
      [.str "h".toList, .str "c".toList, .str "d".toList]
      [ellAxes 1 ++ [.str "h".toList], [.str "d".toList], [.str "t".toList]] mixX mixW
      (biasAt [.paren ["...".toList, "1".toList, "h".toList], word "d", word "t"] [word "d"] (some mixB)) mixY := by
  have h1 := mix_result
  have h2 := mix_shapes
  cases hm : mixEx with
  | error e => rw [hm] at h2; cases h2
  | ok m =>
    rw [hm] at h1 h2
    simp only [Except.map, Except.ok.injEq, Prod.mk.injEq] at h2
    refine C29_output (so := fun _ => idOrder) (weight := "h c d".toList) (bias := some "d".toList) (m := m)
      (call := Layer.forwardTorch intOps) (f := refEinsum) (GW := [word "h", word "c", word "d"])
      (kw := [kwInt "h" 2, kwInt "c" 3, kwInt "d" 2])
      (by decide) ⟨by decide, by decide⟩ mix_pattern (isSide_of (by decide) (by decide) (by decide) (by decide)) ?_ hm
      (.inr ⟨_, rfl⟩) refEinsum_lawful ⟨1, fun h => absurd (by decide) h, by decide, by decide, rfl⟩ ⟨by decide, ?_, ?_⟩
      (by rw [h2.1]; rfl) (by rw [h2.2]; rfl) h1
    · intro t ht
      cases ht
      exact isSide_of (by decide) (by decide) (by decide) (by decide)
    · intro n s h
      simp only [List.mem_cons, List.not_mem_nil, or_false, kwInt, Prod.mk.injEq] at h
      rcases h with ⟨rfl, rfl⟩ | ⟨rfl, rfl⟩ | ⟨rfl, rfl⟩ <;> decide
    · intro side i v h
      exact absurd h (by simp [ellAxes])

-- without parentheses there are no rearrangements
example : (makeEinMix (fun _ => idOrder) "t b cin -> t b cout".toList "cin cout".toList (some "cout".toList)
      [kwInt "cin" 10, kwInt "cout" 20] : Py (EinMix Int)).map
        (fun m => (m.weightShape, m.biasShape, m.einsumPattern, m.pre.isSome, m.post.isSome)) =
    .ok ([10, 20], some [1, 1, 20], "dab,bc->dac".toList, false, false) := by rfl

-- refused by the constructor
example : (makeEinMix (fun _ => idOrder) "a b -> a c".toList "b c".toList none [kwInt "b" 2] : Py (EinMix Int)) =
    .error .einops := by rfl
example : (makeEinMix (fun _ => idOrder) "a b -> a c".toList "b c".toList (some "a".toList) [kwInt "b" 2, kwInt "c" 3] :
    Py (EinMix Int)) = .error .einops := by rfl
example : (makeEinMix (fun _ => idOrder) "a b -> a c".toList "b c d".toList none [kwInt "b" 2, kwInt "c" 3, kwInt "d" 3] :
    Py (EinMix Int)) = .error .einops := by rfl
example : (makeEinMix (fun _ => idOrder) "a b -> a c".toList "b c".toList (some "b".toList) [kwInt "b" 2, kwInt "c" 3] :
    Py (EinMix Int)) = .error .einops := by rfl
example : (makeEinMix (fun _ => idOrder) "a b -> a c".toList "b c".toList none [kwInt "b" 2, kwInt "c" 3, kwInt "d" 3] :
    Py (EinMix Int)) = .error .einops := by rfl
/-- bias axes before the ellipsis are refused -/
example : (makeEinMix (fun _ => idOrder) "a ... b -> c ... a".toList "b c".toList (some "c".toList) [kwInt "b" 2, kwInt "c" 3] :
    Py (EinMix Int)) = .error .einops := by rfl

/-- `1` in the weight shape raises ValueError ("not enough values to unpack"), not EinopsError. -/
theorem C30_unit_in_weight :
    (makeEinMix (fun _ => idOrder) "a b -> a c".toList "b 1 c".toList none [kwInt "b" 2, kwInt "c" 3] : Py (EinMix Int)) =
      .error .value := by rfl

/-- A summed axis of length 0 raises ZeroDivisionError. -/
theorem C30_fan_in :
    (makeEinMix (fun _ => idOrder) "a b -> a c".toList "b c".toList none [kwInt "b" 0, kwInt "c" 3] : Py (EinMix Int)) =
      .error .zeroDivision := by rfl

/-- More than 26 axes raise KeyError (`einsum` has 52 letters). -/
theorem C30_many_axes :
    (makeEinMix (fun _ => idOrder) "a b c d e f g h i j k l m n o p q r s t u v w x y z aa -> b c d e f g h i j k l m n o p q r s t u v w x y z aa".toList
      "a".toList none [kwInt "a" 2] : Py (EinMix Int)) = .error .key := by rfl

/-- A size for an input axis that is neither in a group nor in the weight is not compared with the input: here `a=5`, the
input has 2 there. -/
theorem C29_unchecked_size :
    callMix (makeEinMix (fun _ => idOrder) "a b -> a c".toList "b c".toList none [kwInt "a" 5, kwInt "b" 3, kwInt "c" 1])
      ⟨[3, 1], [1, 1, 1], rfl⟩ none t23 = .ok ⟨[2, 1], [3, 12], rfl⟩ := by rfl

/-- 8 dimensions for the ellipsis and a group: KeyError; without a group it works. -/
theorem C29_many_dimensions :
    callMix (makeEinMix (fun _ => idOrder) "... (a b) -> ... a b".toList "a".toList none [kwInt "a" 2, kwInt "b" 1])
      ⟨[2], [1, 10], rfl⟩ none ⟨[1, 1, 1, 1, 1, 1, 1, 1, 2], [3, 4], rfl⟩ = .error .key ∧
    (callMix (makeEinMix (fun _ => idOrder) "... a -> ... a".toList "a".toList none [kwInt "a" 2])
      ⟨[2], [1, 10], rfl⟩ none ⟨[1, 1, 1, 1, 1, 1, 1, 1, 2], [3, 4], rfl⟩).map Tensor.data = .ok [3, 40] := by
  constructor <;> rfl

end

end Einops
