import Verif.Binding
import Verif.Props.Algebra
import Verif.Props.Operations
import Verif.Props.Layers
import Verif.Props.SizeLaws

/-!
# Axes whose names are names of parameters

The other files describe the bodies of the functions; here are calls as written in Python.
-/

namespace Einops

universe u v

/-- parameters of `einops.reduce`; `rearrange` and `repeat` pass the third one on -/
def reservedNames : List Str := ["tensor".toList, "pattern".toList, "reduction".toList]

/-- no keyword in `kw` is one of `names` -/
def Avoids {ν : Type v} (names : List Str) (kw : List (Str × ν)) : Prop := ∀ k ∈ kw.map Prod.fst, k ∉ names

theorem bindRest_ok {ν : Type v} {names : List Str} {kw : List (Str × ν)} (h : Avoids names kw) :
    bindRest names kw = .ok kw := by
  unfold bindRest
  rw [if_neg]
  intro hc
  obtain ⟨p, hp, hd⟩ := List.any_eq_true.1 hc
  exact h _ (List.mem_map.2 ⟨p, hp, rfl⟩) (of_decide_eq_true hd)

theorem bindRest_error {ν : Type v} {names : List Str} {kw : List (Str × ν)} (h : ¬ Avoids names kw) :
    bindRest names kw = .error .type := by
  unfold bindRest
  rw [if_pos]
  unfold Avoids at h
  push Not at h
  obtain ⟨k, hk, hn⟩ := h
  obtain ⟨p, hp, rfl⟩ := List.mem_map.1 hk
  exact List.any_eq_true.2 ⟨p, hp, decide_eq_true hn⟩

theorem Avoids.mono {ν : Type v} {names names' : List Str} {kw : List (Str × ν)} (h : Avoids names kw)
    (hs : ∀ n ∈ names', n ∈ names) : Avoids names' kw := fun k hk hn => h k hk (hs k hn)

section
variable {α : Type u} [PyUnicode] {E : ElemOps α} {b b' : Backend α} {so so' : SetOrder} {x y z : Tensor α} {t : Input α}
  {l r pattern pattern' : Str} {GL GR : List Elem} {kw kw' : List (Str × Size)} {red : Reduction α} {d : List (Str × Nat)}

omit [PyUnicode] in
/-- the two bindings of `rearrange` and `repeat` -/
theorem two_binds {β : Type u} (f g : List (Str × Size) → Py β) (kw : List (Str × Size))
    (hg : g kw = match bindRest ["tensor".toList, "pattern".toList] kw with
      | .error e => .error e
      | .ok kw =>
        match bindRest ["reduction".toList] kw with
        | .error e => .error e
        | .ok kw => f kw) :
    (Avoids reservedNames kw → g kw = f kw) ∧
    ((¬ Avoids reservedNames kw → f kw = .error .type) → ¬ Avoids reservedNames kw → g kw = .error .type) := by
  rw [hg]
  constructor
  · intro h
    rw [bindRest_ok (h.mono (by simp [reservedNames]))]
    simp only
    rw [bindRest_ok (h.mono (by simp [reservedNames]))]
  · intro hf h
    by_cases h1 : Avoids ["tensor".toList, "pattern".toList] kw
    · rw [bindRest_ok h1]
      simp only
      by_cases h2 : Avoids ["reduction".toList] kw
      · rw [bindRest_ok h2]
        exact hf h
      · rw [bindRest_error h2]
    · rw [bindRest_error h1]

/-- **C52** `reduce`, `rearrange`, `repeat` and their counterparts in `einops.array_api`: a size for an axis called
`tensor`, `pattern` or `reduction` raises TypeError, whatever the other arguments are; otherwise the body is executed. -/
theorem C52_functions (b : Backend α) (E : ElemOps α) (so : SetOrder) (t : Input α) (pattern : Str) (red : Reduction α)
    (kw : List (Str × Size)) :
    (¬ Avoids reservedNames kw →
      pyReduce b so t pattern red kw = .error .type ∧ pyRearrange b so t pattern kw = .error .type ∧
      pyRepeat b so t pattern kw = .error .type ∧ pyArrayApiReduce E so t pattern red kw = .error .type ∧
      ∀ op, pyArrayApiMove op E so t pattern kw = .error .type) ∧
    (Avoids reservedNames kw →
      pyReduce b so t pattern red kw = reduce b so t pattern red kw ∧
      pyRearrange b so t pattern kw = rearrange b so t pattern kw ∧
      pyRepeat b so t pattern kw = repeat_ b so t pattern kw ∧
      pyArrayApiReduce E so t pattern red kw = arrayApiReduce E so t pattern red kw ∧
      ∀ op, pyArrayApiMove op E so t pattern kw = arrayApiReduce E so t pattern (.name op) kw) := by
  have hr : ∀ red : Reduction α, ¬ Avoids reservedNames kw → pyReduce b so t pattern red kw = .error .type := by
    intro red h
    unfold pyReduce
    rw [show ["tensor".toList, "pattern".toList, "reduction".toList] = reservedNames from rfl, bindRest_error h]
  have ha : ∀ red : Reduction α, ¬ Avoids reservedNames kw → pyArrayApiReduce E so t pattern red kw = .error .type := by
    intro red h
    unfold pyArrayApiReduce
    rw [show ["tensor".toList, "pattern".toList, "reduction".toList] = reservedNames from rfl, bindRest_error h]
  have hr' : ∀ red : Reduction α, Avoids reservedNames kw →
      pyReduce b so t pattern red kw = reduce b so t pattern red kw := by
    intro red h
    unfold pyReduce
    rw [show ["tensor".toList, "pattern".toList, "reduction".toList] = reservedNames from rfl, bindRest_ok h]
  have ha' : ∀ red : Reduction α, Avoids reservedNames kw →
      pyArrayApiReduce E so t pattern red kw = arrayApiReduce E so t pattern red kw := by
    intro red h
    unfold pyArrayApiReduce
    rw [show ["tensor".toList, "pattern".toList, "reduction".toList] = reservedNames from rfl, bindRest_ok h]
  have k1 := two_binds (fun kw => pyReduce b so t pattern (.name "rearrange".toList) kw) (pyRearrange b so t pattern) kw rfl
  have k2 := two_binds (fun kw => pyReduce b so t pattern (.name "repeat".toList) kw) (pyRepeat b so t pattern) kw rfl
  have k3 := fun op => two_binds (fun kw => pyArrayApiReduce E so t pattern (.name op) kw)
    (pyArrayApiMove op E so t pattern) kw rfl
  exact ⟨fun h => ⟨hr _ h, k1.2 (hr _) h, k2.2 (hr _) h, ha _ h, fun op => (k3 op).2 (ha _) h⟩,
    fun h => ⟨hr' _ h, (k1.1 h).trans (hr' _ h), (k2.1 h).trans (hr' _ h), ha' _ h, fun op => ((k3 op).1 h).trans (ha' _ h)⟩⟩

/-- **C52** Constructors of layers: the names are `self`, `pattern`, for `Reduce` also `reduction`, for `EinMix` also
`weight_shape` and `bias_shape`. -/
theorem C52_layers (so : Nat → SetOrder) (pattern : Str) (red : Reduction α) (kw : List (Str × Size)) (weight : Str)
    (bias : Option Str) :
    ((Avoids ["self".toList, "pattern".toList] kw →
        (pyRearrangeLayer so pattern kw : Py (Layer α)) = rearrangeLayer so pattern kw) ∧
      (¬ Avoids ["self".toList, "pattern".toList] kw → (pyRearrangeLayer so pattern kw : Py (Layer α)) = .error .type)) ∧
    ((Avoids ["self".toList, "pattern".toList, "reduction".toList] kw →
        pyReduceLayer so pattern red kw = reduceLayer so pattern red kw) ∧
      (¬ Avoids ["self".toList, "pattern".toList, "reduction".toList] kw →
        pyReduceLayer so pattern red kw = .error .type)) ∧
    ((Avoids ["self".toList, "pattern".toList, "weight_shape".toList, "bias_shape".toList] kw →
        (pyEinMix so pattern weight bias kw : Py (EinMixLayer α)).map EinMixLayer.mix =
          makeEinMix so pattern weight bias kw) ∧
      (¬ Avoids ["self".toList, "pattern".toList, "weight_shape".toList, "bias_shape".toList] kw →
        (pyEinMix so pattern weight bias kw : Py (EinMixLayer α)) = .error .type)) := by
  refine ⟨⟨fun h => ?_, fun h => ?_⟩, ⟨fun h => ?_, fun h => ?_⟩, fun h => ?_, fun h => ?_⟩
  · rw [pyRearrangeLayer, bindRest_ok h]
  · rw [pyRearrangeLayer, bindRest_error h]
  · rw [pyReduceLayer, bindRest_ok h]
  · rw [pyReduceLayer, bindRest_error h]
  · rw [pyEinMix, bindRest_ok h]
    simp only
    cases (makeEinMix so pattern weight bias kw : Py (EinMix α)) <;> rfl
  · rw [pyEinMix, bindRest_error h]

/-- **C52** A new axis of `repeat` cannot be called `tensor`, `pattern` or `reduction`: every call raises. -/
theorem C52_new_axis (hp : IsPattern pattern GL GR) {w : Str} (hw : w ∈ reservedNames) (hn : IsName false w)
    (hR : w ∈ sideWords GR) (hL : w ∉ sideWords GL) (b : Backend α) (so : SetOrder) (x : Tensor α)
    (kw : List (Str × Size)) : pyRepeat b so (.one x) pattern kw = .error .type ∨
      pyRepeat b so (.one x) pattern kw = .error .einops := by
  by_cases hav : Avoids reservedNames kw
  · right
    rw [((C52_functions b ⟨fun _ _ => .error .backend⟩ so (.one x) pattern (.name []) kw).2 hav).2.2.1]
    rcases prepare_cases hp (.name "repeat".toList) (kw.map Prod.fst) x.ndim with ⟨ex, -, hpr, -⟩ | ⟨-, he⟩
    · exfalso
      have hs := hpr.sides
      rw [SidesOK, if_neg (by decide), if_pos rfl] at hs
      rcases hs.new_sized w hR (isName_not_number false hn) with h | h
      · exact hL h
      · exact hav w h hw
    · simp only [repeat_, reduce, resolveInput, Reduction.kind, he so]
  · left
    exact ((C52_functions b ⟨fun _ _ => .error .backend⟩ so (.one x) pattern (.name []) kw).1 hav).2.2.1

/-- **C04** as a call: which calls of `rearrange` succeed -/
theorem C04_rearrange_call (hb : Modelled E b) (hell : '…' ∉ pattern) (hkw : IntKw kw) :
    (∃ y, pyRearrange b so (.one x) pattern kw = .ok y) ↔
      Avoids reservedNames kw ∧
      ∃ GL GR L R len, IsPattern pattern GL GR ∧ RearrangeSides GL GR ∧ KeywordsUsed GL GR (kw.map Prod.fst) ∧
        Groups GL GR x.shape.length L R ∧ OneUnknown L (kw.map Prod.fst) ∧ Fits L R kw x.shape len ∧
        Determinate L (kw.map Prod.fst) len := by
  by_cases h : Avoids reservedNames kw
  · rw [((C52_functions b E so (.one x) pattern (.name []) kw).2 h).2.1, C04_rearrange_accepts hb hell hkw]
    exact ⟨fun h' => ⟨h, h'⟩, And.right⟩
  · rw [((C52_functions b E so (.one x) pattern (.name []) kw).1 h).2.1]
    exact ⟨fun ⟨_, h'⟩ => (nomatch h'), fun h' => absurd h'.1 h⟩

/-- **C45** as a call: which calls of `repeat` succeed -/
theorem C45_repeat_call (hb : Modelled E b) (hell : '…' ∉ pattern) (hkw : IntKw kw)
    (hneg : RefusesNegative E b ∨ ∀ p ∈ kw, 0 ≤ p.2.val) :
    (∃ y, pyRepeat b so (.one x) pattern kw = .ok y) ↔
      Avoids reservedNames kw ∧
      ∃ GL GR L R len, IsPattern pattern GL GR ∧ RepeatSides GL GR (kw.map Prod.fst) ∧
        KeywordsUsed GL GR (kw.map Prod.fst) ∧
        Groups GL GR x.shape.length L R ∧ OneUnknown L (kw.map Prod.fst) ∧ Fits L R kw x.shape len ∧
        Determinate L (kw.map Prod.fst) len := by
  by_cases h : Avoids reservedNames kw
  · rw [((C52_functions b E so (.one x) pattern (.name []) kw).2 h).2.2.1, C45_repeat_accepts hb hell hkw hneg]
    exact ⟨fun h' => ⟨h, h'⟩, And.right⟩
  · rw [((C52_functions b E so (.one x) pattern (.name []) kw).1 h).2.2.1]
    exact ⟨fun ⟨_, h'⟩ => (nomatch h'), fun h' => absurd h'.1 h⟩

/-- **C46** as a call: which calls of `reduce` succeed -/
theorem C46_reduce_call {o : Str} (hb : Computes E o b) (ho : o ∈ builtins) (hell : '…' ∉ pattern)
    (hkw : IntKw kw) :
    (∃ y, pyReduce b so (.one x) pattern (.name o) kw = .ok y) ↔
      Avoids reservedNames kw ∧
      ∃ GL GR L R len, IsPattern pattern GL GR ∧ ReduceSides GL GR ∧ KeywordsUsed GL GR (kw.map Prod.fst) ∧
        Groups GL GR x.shape.length L R ∧ OneUnknown L (kw.map Prod.fst) ∧ Fits L R kw x.shape len ∧
        Determinate L (kw.map Prod.fst) len ∧ (o = "mean".toList → Drops L R → b.isFloat x = true) ∧
        (Drops L R → ∀ env, InRange len R.flatten env → ∀ vs,
          (loops len (L.flatten.filter (fun a => a ∉ R.flatten)) env).map (x.atAxes L len) = vs.map some →
            ∃ v, E.op o vs = .ok v) := by
  by_cases h : Avoids reservedNames kw
  · rw [((C52_functions b E so (.one x) pattern (.name o) kw).2 h).1, C46_reduce_accepts hb ho hell hkw]
    exact ⟨fun h' => ⟨h, h'⟩, And.right⟩
  · rw [((C52_functions b E so (.one x) pattern (.name o) kw).1 h).1]
    exact ⟨fun ⟨_, h'⟩ => (nomatch h'), fun h' => absurd h'.1 h⟩

/-- **C52**, **C51** `rearrange` is undone with the sizes from `parse_shape` when none of the names is reserved. -/
theorem C52_undo (hl : IsSide false false l GL) (hr : IsSide false false r GR)
    (hpar : ∀ ws, Elem.paren ws ∈ GR → dots ∉ ws) (hb : Modelled E b) (hkw : IntKw kw)
    (h : pyRearrange b so (.one x) (l ++ ['-', '>'] ++ r) kw = .ok y) (hd : parseShape x.shape l = .ok d)
    {E' : ElemOps α} {b' : Backend α} (hb' : Modelled E' b') (hav : Avoids reservedNames d) :
    pyRearrange b' so' (.one y) (r ++ ['-', '>'] ++ l) (asSizes d) = .ok x := by
  have hav' : Avoids reservedNames (asSizes d) := by
    unfold Avoids
    rw [asSizes_names]
    exact hav
  have hk : Avoids reservedNames kw := by
    by_contra hc
    rw [((C52_functions b E so (.one x) _ (.name []) kw).1 hc).2.1] at h
    cases h
  rw [((C52_functions b' E' so' (.one y) _ (.name []) _).2 hav').2.1]
  rw [((C52_functions b E so (.one x) _ (.name []) kw).2 hk).2.1] at h
  exact C51_parse_shape_undo hl hr hpar hb hkw h hd hb'

/-- **C52**, **C10** Renaming axes does not change the outcome of calls when no keyword is a reserved name before and
after renaming. -/
theorem C10_rename_call_partial {ρ : Str → Str} (hp : IsPattern pattern GL GR)
    (hp' : IsPattern pattern' (GL.map (Elem.mapWords (renameWord ρ))) (GR.map (Elem.mapWords (renameWord ρ))))
    (hn : (kw.map Prod.fst).Nodup)
    (hname : ∀ w ∈ sideWords GL ++ sideWords GR ++ kw.map Prod.fst, IsName false w → IsName false (ρ w))
    (hinj : ∀ w ∈ sideWords GL ++ sideWords GR ++ kw.map Prod.fst,
      ∀ v ∈ sideWords GL ++ sideWords GR ++ kw.map Prod.fst, IsName false w → IsName false v → ρ w = ρ v → w = v)
    (h1 : Avoids reservedNames kw) (h2 : Avoids reservedNames (kw.map (fun p => (renameWord ρ p.1, p.2))))
    (b : Backend α) (t : Input α) (red : Reduction α) (so so' : SetOrder) :
    pyReduce b so' t pattern' red (kw.map (fun p => (renameWord ρ p.1, p.2))) = pyReduce b so t pattern red kw := by
  rw [((C52_functions b ⟨fun _ _ => .error .backend⟩ so' t pattern' red _).2 h2).1,
    ((C52_functions b ⟨fun _ _ => .error .backend⟩ so t pattern red _).2 h1).1]
  exact C10_rename_partial hp hp' hn hname hinj b t red so so'

end

/-! ### Examples and witnesses -/

section
attribute [local instance] asciiUnicode

-- an axis may be called `pattern` as long as its size is not given
example : pyRearrange (numpyBackend intOps true) idOrder (.one t23) "pattern tensor -> tensor pattern".toList [] =
    .ok ⟨[3, 2], [0, 3, 1, 4, 2, 5], rfl⟩ := by rfl
example : pyRepeat (numpyBackend intOps true) idOrder (.one t23) "a b -> (a copies) b".toList [kwInt "copies" 2] =
    repeat_ (numpyBackend intOps true) idOrder (.one t23) "a b -> (a copies) b".toList [kwInt "copies" 2] := by rfl
example : ∀ w ∈ reservedNames, IsName false w := by decide

/-- **C10** is false for sizes of axes that are called like a parameter: the same call with `h` instead of `pattern`
succeeds. -/
theorem C10_reserved_name :
    pyRearrange (numpyBackend intOps true) idOrder (.one t43) "(h w) c -> h w c".toList [kwInt "h" 2] =
      .ok ⟨[2, 2, 3], t43.data, rfl⟩ ∧
    pyRearrange (numpyBackend intOps true) idOrder (.one t43) "(pattern w) c -> pattern w c".toList
      [kwInt "pattern" 2] = .error .type := by
  constructor <;> rfl

/-- **C31** is false for an axis called `reduction`: the layer accepts its size, the function does not. -/
theorem C31_reserved_name :
    callLayer (pyRearrangeLayer (fun _ => idOrder) "(reduction w) c -> reduction w c".toList [kwInt "reduction" 2])
      (fun l => l.apply (numpyBackend intOps true) t43) = .ok ⟨[2, 2, 3], t43.data, rfl⟩ ∧
    pyRearrange (numpyBackend intOps true) idOrder (.one t43) "(reduction w) c -> reduction w c".toList
      [kwInt "reduction" 2] = .error .type := by
  constructor <;> rfl

/-- The condition on names in `C52_undo` is needed. -/
theorem C52_undo_reserved_name :
    pyRearrange (numpyBackend intOps true) idOrder (.one t23) "tensor b->b tensor".toList [] =
      .ok ⟨[3, 2], [0, 3, 1, 4, 2, 5], rfl⟩ ∧
    parseShape t23.shape "tensor b".toList = .ok [("tensor".toList, 2), ("b".toList, 3)] ∧
    pyRearrange (numpyBackend intOps true) idOrder (.one ⟨[3, 2], [0, 3, 1, 4, 2, 5], rfl⟩) "b tensor->tensor b".toList
      (asSizes [("tensor".toList, 2), ("b".toList, 3)]) = .error .type := by
  refine ⟨?_, ?_, ?_⟩ <;> rfl

end

end Einops
