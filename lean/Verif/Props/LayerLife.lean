import Verif.Proofs.LayerLife
import Verif.Props.Binding
import Verif.Props.EinMixSizes

/-!
# `EinMix` in frameworks that check and create parameters at different times

A layer that torch makes is made in tensorflow and flax, and computes the same from the same parameters.  A layer that
torch does not make never computes anything in tensorflow or flax; the exception may come later, and be another one.
Exceptions to this concern names: flax takes sizes in a dictionary, which changes what axes may be called.
-/

namespace Einops

universe u

/-- parameters of the constructor of `EinMix` -/
def mixReserved : List Str := ["self".toList, "pattern".toList, "weight_shape".toList, "bias_shape".toList]

section
variable {α : Type u} [PyUnicode] {so : Nat → SetOrder} {pattern weight : Str} {bias : Option Str} {kw : List (Str × Size)}

omit [PyUnicode] in
theorem bindMix_ok (h : Avoids mixReserved kw) :
    bindRest ["self".toList, "pattern".toList, "weight_shape".toList, "bias_shape".toList] kw = .ok kw := bindRest_ok h

omit [PyUnicode] in
theorem bindMix_error (h : ¬ Avoids mixReserved kw) :
    bindRest ["self".toList, "pattern".toList, "weight_shape".toList, "bias_shape".toList] kw = .error .type :=
  bindRest_error h

theorem pyEinMix_avoids (h : Avoids mixReserved kw) : (pyEinMix so pattern weight bias kw : Py (EinMixLayer α)) =
    (makeEinMix so pattern weight bias kw).map (fun m => ⟨pattern, weight, bias, kw, m⟩) := by
  unfold pyEinMix
  rw [bindMix_ok h]
  simp only
  rcases makeEinMix (α := α) so pattern weight bias kw with e | m <;> rfl

theorem pyEinMix_made {l : EinMixLayer α} (h : pyEinMix so pattern weight bias kw = .ok l) :
    Avoids mixReserved kw ∧ makeEinMix so pattern weight bias kw = .ok l.mix := by
  have ha : Avoids mixReserved kw := by
    by_contra ha
    unfold pyEinMix at h
    rw [bindMix_error ha] at h
    cases h
  rw [pyEinMix_avoids ha] at h
  rcases hm : makeEinMix (α := α) so pattern weight bias kw with e | m
  · rw [hm] at h
    cases h
  · rw [hm] at h
    cases h
    exact ⟨ha, rfl⟩

theorem not_number_of_letter {c : Char} {s : Str} (hc : c.isAlpha = true) : ¬ IsNumber (c :: s) := by
  rintro ⟨-, h⟩
  obtain ⟨d, hd⟩ := h c (by simp)
  have h1 := PyUnicode.decimal_not_start c d hd
  rw [(PyUnicode.ascii_letter c hc).2.1] at h1
  cases h1

/-! ### tensorflow -/

variable [Add α] {call : Layer α → Tensor α → Py (Tensor α)} {f : Str → List (Tensor α) → Py (Tensor α)}
  {draw : List Nat → Option (List Nat) → Tensor α × Option (Tensor α)}
  {draws : Nat → List Nat → Option (List Nat) → Tensor α × Option (Tensor α)}

/-- **C85**: a layer that torch makes is made in tensorflow; any sequence of calls gives what the layer computes with
parameters of the shapes torch would create, drawn in the first call.  Failing calls do not disturb later ones. -/
theorem C85_tensorflow {l : EinMixLayer α} (h : pyEinMix so pattern weight bias kw = .ok l) :
    ∃ k, pyKerasEinMix so pattern weight bias kw = .ok k ∧ ∀ t xs,
      KerasObject.calls call f draws t ⟨k, none⟩ xs = xs.map (fun x => l.mix.forwardNew call f
        (draws t l.mix.weightShape l.mix.biasShape).1 (draws t l.mix.weightShape l.mix.biasShape).2 x) := by
  obtain ⟨ha, hm⟩ := pyEinMix_made h
  unfold pyKerasEinMix
  rw [bindMix_ok ha]
  simp only
  rcases keras_cases (α := α) so pattern weight bias kw with ⟨k, h1, h2⟩ | ⟨e, -, h2⟩ | ⟨-, h2⟩
  · exact ⟨k, h1, calls_ok call f draws (by rw [← h2, hm])⟩
  · rw [hm] at h2
    cases h2
  · rw [hm] at h2
    cases h2

/-- **C85**: a layer that torch does not make is not made in tensorflow, with the same exception; except for lengths that
torch refuses, where the constructor of tensorflow may find names without letters, or every call raises. -/
theorem C85_tensorflow_refused {e : PyErr} (h : (pyEinMix so pattern weight bias kw : Py (EinMixLayer α)) = .error e) :
    (pyKerasEinMix so pattern weight bias kw : Py (KerasEinMix α)) = .error e ∨
    e = .backend ∧ ((pyKerasEinMix so pattern weight bias kw : Py (KerasEinMix α)) = .error .key ∨
      ∃ k : KerasEinMix α, pyKerasEinMix so pattern weight bias kw = .ok k ∧
        ∀ t xs, KerasObject.calls call f draws t ⟨k, none⟩ xs = xs.map (fun _ => .error .backend)) := by
  by_cases ha : Avoids mixReserved kw
  swap
  · unfold pyEinMix at h
    unfold pyKerasEinMix
    rw [bindMix_error ha] at h ⊢
    cases h
    exact .inl rfl
  rw [pyEinMix_avoids ha] at h
  unfold pyKerasEinMix
  rw [bindMix_ok ha]
  simp only
  rcases keras_cases (α := α) so pattern weight bias kw with ⟨k, h1, h2⟩ | ⟨e', h1, h2⟩ | ⟨h1, h2⟩
  · rw [h2] at h
    rcases hb : k.build with e1 | m
    · rw [hb] at h
      cases h
      obtain rfl := build_fails hb
      exact .inr ⟨rfl, .inr ⟨k, h1, calls_err call f draws hb⟩⟩
    · rw [hb] at h
      cases h
  · rw [h2] at h
    cases h
    exact .inl h1
  · rw [h2] at h
    cases h
    exact .inr ⟨rfl, .inl h1⟩

omit [Add α] in
/-- **C85**: without negative sizes the constructors of torch and tensorflow raise the same exceptions. -/
theorem C85_tensorflow_nonneg (hk : ∀ n s, (n, s) ∈ kw → 0 ≤ s.val) (e : PyErr) :
    (pyKerasEinMix so pattern weight bias kw : Py (KerasEinMix α)) = .error e ↔
    (pyEinMix so pattern weight bias kw : Py (EinMixLayer α)) = .error e := by
  by_cases ha : Avoids mixReserved kw
  swap
  · unfold pyEinMix pyKerasEinMix
    rw [bindMix_error ha]
    simp
  rw [pyEinMix_avoids ha]
  unfold pyKerasEinMix
  rw [bindMix_ok ha]
  simp only
  rcases keras_nonneg (α := α) (so := so) (pattern := pattern) (weight := weight) (bias := bias)
    (fun p hp => hk p.1 p.2 hp) with ⟨k, m, h1, -, h2⟩ | ⟨e', h1, h2⟩
  · rw [h1, h2]
    simp [Except.map]
  · rw [h1, h2]
    simp [Except.map]

/-! ### flax -/

omit [Add α] in
theorem pre_made {GL GR : List Elem} (hpat : IsPattern pattern GL GR) (hw : '…' ∉ weight) {m : EinMix α}
    (hm : makeEinMix so pattern weight bias kw = .ok m) :
    ∃ p s, einmixPlan pattern weight kw = .ok p ∧ FlaxEinMix.setup ⟨pattern, weight, bias, kw⟩ = .ok s ∧ s.pre = p.pre ∧
      (p.pre = none ↔ m.pre = none) := by
  have hm' := make_setup (α := α) so ⟨pattern, weight, bias, kw⟩
  simp only at hm'
  rw [hm] at hm'
  rcases hp : einmixPlan pattern weight kw with e1 | p
  · rw [hp] at hm'
    cases hm'
  rw [hp] at hm'
  simp only at hm'
  rcases hpre : makeRearrange (α := α) so p.pre with e1 | pre
  · rw [hpre] at hm'
    cases hm'
  rw [hpre] at hm'
  simp only at hm'
  rcases hpost : makeRearrange (α := α) so (p.post.map (fun s => (s, []))) with e1 | post
  · rw [hpost] at hm'
    cases hm'
  rw [hpost] at hm'
  simp only at hm'
  rcases hs : FlaxEinMix.setup ⟨pattern, weight, bias, kw⟩ with e1 | s
  · rw [hs] at hm'
    cases hm'
  rw [hs] at hm'
  cases hm'
  obtain ⟨p', h1, h2, -⟩ := setup_ok hs
  simp only at h1
  rw [hp] at h1
  cases h1
  refine ⟨p, s, rfl, rfl, h2, ?_⟩
  simp only
  rcases hq : p.pre with _ | ⟨q, kw'⟩
  · rw [hq] at hpre
    cases hpre
    simp
  · rw [hq] at hpre
    unfold makeRearrange at hpre
    simp only at hpre
    split at hpre <;> cases hpre
    simp

/-- **C85**: a layer that torch makes works in flax, and computes the same from the same parameters. -/
theorem C85_flax {l : EinMixLayer α} (h : pyEinMix so pattern weight bias kw = .ok l) (x : Tensor α) :
    flaxOnce so call f draw ⟨pattern, weight, bias, kw⟩ x = l.mix.forwardNew call f
      (draw l.mix.weightShape l.mix.biasShape).1 (draw l.mix.weightShape l.mix.biasShape).2 x := by
  obtain ⟨ha, hm⟩ := pyEinMix_made h
  obtain ⟨s, h1, h2, h3, -, -, h4⟩ := flax_ok (m := ⟨pattern, weight, bias, kw⟩) call f hm (by
    intro p q kw' hp hq n hn hk
    refine ha n (plan_pre hp hq n hk) ?_
    simp only [List.mem_cons, List.not_mem_nil, or_false] at hn
    unfold mixReserved
    rcases hn with rfl | rfl <;> simp)
  unfold flaxOnce
  rw [h1]
  simp only
  rw [h2, h3, h4]

/-- **C85**: arguments that the constructor of torch refuses are kept by flax, and every call raises.  (Arguments whose
names cannot be keywords are the subject of `C85_flax_names`.) -/
theorem C85_flax_refused {e : PyErr} (ha : Avoids mixReserved kw)
    (h : (pyEinMix so pattern weight bias kw : Py (EinMixLayer α)) = .error e) (x : Tensor α) :
    ∃ e', flaxOnce so call f draw ⟨pattern, weight, bias, kw⟩ x = .error e' ∧
      ('…' ∉ pattern → '…' ∉ weight → e ≠ .einops → e' = e) := by
  rw [pyEinMix_avoids ha] at h
  rcases hm : makeEinMix (α := α) so pattern weight bias kw with e1 | m
  swap
  · rw [hm] at h
    cases h
  rw [hm] at h
  cases h
  obtain ⟨e', h'⟩ := flax_err (m := ⟨pattern, weight, bias, kw⟩) call f hm draw x
  refine ⟨e', h', fun hp hw he => ?_⟩
  have hs := flax_err_same hp hw he hm
  unfold flaxOnce at h'
  rw [hs] at h'
  cases h'
  rfl

theorem keras_once {l : EinMixLayer α} (h : pyEinMix so pattern weight bias kw = .ok l) (x : Tensor α) :
    kerasOnce so call f draw pattern weight bias kw x = l.mix.forwardNew call f
      (draw l.mix.weightShape l.mix.biasShape).1 (draw l.mix.weightShape l.mix.biasShape).2 x := by
  obtain ⟨k, h1, h2⟩ := C85_tensorflow (call := call) (f := f) (draws := fun _ => draw) h
  have h3 := h2 0 [x]
  unfold KerasObject.calls at h3
  rw [List.map_cons] at h3
  unfold kerasOnce
  rw [h1]
  exact (List.cons.inj h3).1

theorem eager_once {x y : Tensor α} (h : eagerOnce so call f draw pattern weight bias kw x = .ok y) :
    ∃ l, pyEinMix so pattern weight bias kw = .ok l ∧ l.mix.forward call f
      (draw l.mix.weightShape l.mix.biasShape).1 (draw l.mix.weightShape l.mix.biasShape).2 x = .ok y := by
  unfold eagerOnce at h
  rcases hl : pyEinMix (α := α) so pattern weight bias kw with e | l
  · rw [hl] at h
    cases h
  rw [hl] at h
  exact ⟨l, rfl, h⟩

/-- **C85**: what torch computes, tensorflow and flax compute. -/
theorem C85_same {x y : Tensor α} (h : eagerOnce so call f draw pattern weight bias kw x = .ok y) :
    kerasOnce so call f draw pattern weight bias kw x = .ok y ∧
    flaxOnce so call f draw ⟨pattern, weight, bias, kw⟩ x = .ok y := by
  obtain ⟨l, hl, hy⟩ := eager_once h
  have hn := forwardNew_of_inplace hy
  exact ⟨(keras_once hl x).trans hn, (C85_flax hl x).trans hn⟩

/-- **C85**: what tensorflow computes and what flax computes is the same, and torch makes the layer. -/
theorem C85_flax_tensorflow (ha : Avoids mixReserved kw) (x y : Tensor α) :
    (kerasOnce so call f draw pattern weight bias kw x = .ok y ↔
      flaxOnce so call f draw ⟨pattern, weight, bias, kw⟩ x = .ok y) ∧
    (kerasOnce so call f draw pattern weight bias kw x = .ok y →
      ∃ l : EinMixLayer α, pyEinMix so pattern weight bias kw = .ok l) := by
  rcases hl : pyEinMix (α := α) so pattern weight bias kw with e | l
  · have h1 : kerasOnce so call f draw pattern weight bias kw x ≠ .ok y := by
      intro hk
      unfold kerasOnce at hk
      rcases C85_tensorflow_refused (call := call) (f := f) (draws := fun _ => draw) hl with h | ⟨-, h | ⟨k, h, h2⟩⟩
      · rw [h] at hk
        cases hk
      · rw [h] at hk
        cases hk
      · rw [h] at hk
        simp only at hk
        have h3 := h2 0 [x]
        unfold KerasObject.calls at h3
        rw [List.map_cons] at h3
        rw [(List.cons.inj h3).1] at hk
        cases hk
    obtain ⟨e', h2, -⟩ := C85_flax_refused (call := call) (f := f) (draw := draw) ha hl x
    rw [h2]
    exact ⟨⟨fun h => absurd h h1, fun h => by cases h⟩, fun h => absurd h h1⟩
  · obtain ⟨k, h1, h2⟩ := C85_tensorflow (call := call) (f := f) (draws := fun _ => draw) hl
    have h3 := h2 0 [x]
    unfold KerasObject.calls at h3
    rw [List.map_cons] at h3
    rw [C85_flax hl x, ← (List.cons.inj h3).1]
    unfold kerasOnce
    rw [h1]
    exact ⟨Iff.rfl, fun _ => ⟨l, rfl⟩⟩

/-- **C85**: names in flax.  If everything but the names of the axes is right: a size for an axis of the left side named
`self` or `pattern` cannot be passed on to an inner layer, and otherwise all names work, those of the parameters of `EinMix`
too. -/
theorem C85_flax_names {GL GR : List Elem} (hpat : IsPattern pattern GL GR) (hw : '…' ∉ weight) {m : EinMix α}
    (hm : makeEinMix so pattern weight bias kw = .ok m) (x : Tensor α) :
    (m.pre ≠ none ∧ (∃ n ∈ ["self".toList, "pattern".toList], n ∈ kw.map Prod.fst ∧ n ∈ sideWords GL) →
      flaxOnce so call f draw ⟨pattern, weight, bias, kw⟩ x = .error .type) ∧
    (¬ (m.pre ≠ none ∧ ∃ n ∈ ["self".toList, "pattern".toList], n ∈ kw.map Prod.fst ∧ n ∈ sideWords GL) →
      flaxOnce so call f draw ⟨pattern, weight, bias, kw⟩ x =
        m.forwardNew call f (draw m.weightShape m.biasShape).1 (draw m.weightShape m.biasShape).2 x) := by
  have hnum : ∀ n ∈ ["self".toList, "pattern".toList], ¬ IsNumber n := by
    intro n hn
    simp only [List.mem_cons, List.not_mem_nil, or_false] at hn
    rcases hn with rfl | rfl
    · exact not_number_of_letter (by decide)
    · exact not_number_of_letter (by decide)
  obtain ⟨p, s, hp, hs, hsp, hpm⟩ := pre_made hpat hw hm
  constructor
  · rintro ⟨h1, n, hn, h2, h3⟩
    rcases hq : p.pre with _ | ⟨q, kw'⟩
    · exact absurd (hpm.1 hq) h1
    unfold flaxOnce
    rw [hs]
    exact flax_type call f hs (hsp.trans hq) hn ((plan_names hpat hw hp hq n).2 ⟨h2, h3, hnum n hn⟩) _ _ _
  · intro hno
    obtain ⟨s', h1, h2, h3, -, -, h4⟩ := flax_ok (m := ⟨pattern, weight, bias, kw⟩) call f hm (by
      intro p' q kw' hp' hq n hn hk
      have hp'' : einmixPlan pattern weight kw = .ok p' := hp'
      rw [hp] at hp''
      cases hp''
      obtain ⟨h1, h2, -⟩ := (plan_names hpat hw hp hq n).1 hk
      exact hno ⟨fun h => (by rw [hpm.2 h] at hq; cases hq), n, hn, h1, h2⟩)
    unfold flaxOnce
    rw [h1]
    simp only
    rw [h2, h3, h4]

end

/-! ### Examples and witnesses -/

section
attribute [local instance] asciiUnicode

/-- a tensor with six entries -/
def lifeX : Tensor Int := ⟨[6], [0, 1, 2, 3, 4, 5], rfl⟩

/-- parameters full of the same number -/
def drawAll (t : Nat) (w : List Nat) (b : Option (List Nat)) : Tensor Int × Option (Tensor Int) :=
  (⟨w, List.replicate w.prod t, List.length_replicate⟩, b.map (fun b => ⟨b, List.replicate b.prod t, List.length_replicate⟩))

/-- parameters full of ones -/
def drawOnes (w : List Nat) (b : Option (List Nat)) : Tensor Int × Option (Tensor Int) :=
  (⟨w, List.replicate w.prod 1, List.length_replicate⟩, b.map (fun b => ⟨b, List.replicate b.prod 1, List.length_replicate⟩))

abbrev torchLife (p w : String) (b : Option String) (kw : List (Str × Size)) : Tensor Int → Py (Tensor Int) :=
  eagerOnce (fun _ => idOrder) (Layer.forwardTorch intOps) refEinsum drawOnes p.toList w.toList (b.map String.toList) kw

abbrev kerasLife (p w : String) (b : Option String) (kw : List (Str × Size)) : Tensor Int → Py (Tensor Int) :=
  kerasOnce (fun _ => idOrder) (Layer.forwardTorch intOps) refEinsum drawOnes p.toList w.toList (b.map String.toList) kw

abbrev flaxLife (p w : String) (b : Option String) (kw : List (Str × Size)) : Tensor Int → Py (Tensor Int) :=
  flaxOnce (fun _ => idOrder) (Layer.forwardTorch intOps) refEinsum drawOnes ⟨p.toList, w.toList, b.map String.toList, kw⟩

/-- the constructors alone -/
abbrev torchMakes (p w : String) (b : Option String) (kw : List (Str × Size)) : Py Unit :=
  (pyEinMix (fun _ => idOrder) p.toList w.toList (b.map String.toList) kw : Py (EinMixLayer Int)).map (fun _ => ())

abbrev kerasMakes (p w : String) (b : Option String) (kw : List (Str × Size)) : Py Unit :=
  (pyKerasEinMix (fun _ => idOrder) p.toList w.toList (b.map String.toList) kw : Py (KerasEinMix Int)).map (fun _ => ())

-- C85: the three frameworks compute the same
example : torchLife "(a b) -> b c" "a c" (some "c") [kwInt "a" 2, kwInt "b" 3, kwInt "c" 2] lifeX =
      .ok ⟨[3, 2], [4, 4, 6, 6, 8, 8], rfl⟩ ∧
    kerasLife "(a b) -> b c" "a c" (some "c") [kwInt "a" 2, kwInt "b" 3, kwInt "c" 2] lifeX =
      .ok ⟨[3, 2], [4, 4, 6, 6, 8, 8], rfl⟩ ∧
    flaxLife "(a b) -> b c" "a c" (some "c") [kwInt "a" 2, kwInt "b" 3, kwInt "c" 2] lifeX =
      .ok ⟨[3, 2], [4, 4, 6, 6, 8, 8], rfl⟩ := by
  refine ⟨?_, ?_, ?_⟩ <;> rfl

-- C85: a failing call (the input does not have six entries) between two others, in tensorflow
example : (match (pyKerasEinMix (fun _ => idOrder) "(a b) -> b c".toList "a c".toList none
      [kwInt "a" 2, kwInt "b" 3, kwInt "c" 1] : Py (KerasEinMix Int)) with
    | .error _ => []
    | .ok k => KerasObject.calls (Layer.forwardTorch intOps) refEinsum drawAll 1 ⟨k, none⟩
        [lifeX, ⟨[2], [1, 1], rfl⟩, lifeX]) =
    [.ok ⟨[3, 1], [3, 5, 7], rfl⟩, .error .einops, .ok ⟨[3, 1], [3, 5, 7], rfl⟩] := by rfl

/-- Time of exceptions: torch and tensorflow refuse to make the layer, flax only calls. A negative length: tensorflow makes
the layer. -/
theorem C85_late :
    torchMakes "a -> b" "a b" none [kwInt "a" (-1), kwInt "b" 2] = .error .backend ∧
    kerasMakes "a -> b" "a b" none [kwInt "a" (-1), kwInt "b" 2] = .ok () ∧
    kerasLife "a -> b" "a b" none [kwInt "a" (-1), kwInt "b" 2] lifeX = .error .backend ∧
    flaxLife "a -> b" "a b" none [kwInt "a" (-1), kwInt "b" 2] lifeX = .error .backend := by
  refine ⟨?_, ?_, ?_, ?_⟩ <;> rfl

/-- Other exceptions: the sizes of `a` and `b` are missing, and `c` is 0.  Torch and tensorflow report the first, flax stops
at the division. -/
theorem C85_other_exception :
    torchMakes "(a b) c -> a b d" "c d" none [kwInt "c" 0, kwInt "d" 2] = .error .einops ∧
    kerasMakes "(a b) c -> a b d" "c d" none [kwInt "c" 0, kwInt "d" 2] = .error .einops ∧
    flaxLife "(a b) c -> a b d" "c d" none [kwInt "c" 0, kwInt "d" 2] lifeX = .error .zeroDivision := by
  refine ⟨?_, ?_, ?_⟩ <;> rfl

/-- 27 names and a negative length: torch stops at the length, tensorflow at the name without a letter. -/
theorem C85_other_exception_tensorflow :
    torchMakes "a b c d e f g h i j k l m n o p q r s t u v w x y z aa -> b c d e f g h i j k l m n o p q r s t u v w x y z aa"
      "a" none [kwInt "a" (-1)] = .error .backend ∧
    kerasMakes "a b c d e f g h i j k l m n o p q r s t u v w x y z aa -> b c d e f g h i j k l m n o p q r s t u v w x y z aa"
      "a" none [kwInt "a" (-1)] = .error .key := by
  decide +kernel

/-- Names: an axis `weight_shape` can have a size in flax only; an axis `pattern` too, unless it is on the left and there is
an inner layer. -/
theorem C85_flax_names_differ :
    torchMakes "a -> weight_shape" "a weight_shape" none [kwInt "a" 6, kwInt "weight_shape" 2] = .error .type ∧
    kerasMakes "a -> weight_shape" "a weight_shape" none [kwInt "a" 6, kwInt "weight_shape" 2] = .error .type ∧
    flaxLife "a -> weight_shape" "a weight_shape" none [kwInt "a" 6, kwInt "weight_shape" 2] lifeX = .ok ⟨[2], [15, 15], rfl⟩ ∧
    flaxLife "pattern -> b" "pattern b" none [kwInt "pattern" 6, kwInt "b" 2] lifeX = .ok ⟨[2], [15, 15], rfl⟩ ∧
    flaxLife "(a c) -> pattern c" "a pattern" none [kwInt "a" 6, kwInt "pattern" 2] lifeX =
      .ok ⟨[2, 1], [15, 15], rfl⟩ ∧
    flaxLife "(pattern c) -> b c" "pattern b" none [kwInt "pattern" 6, kwInt "b" 2] lifeX = .error .type := by
  refine ⟨?_, ?_, ?_, ?_, ?_, ?_⟩ <;> rfl

-- C85: hypotheses of `C85_flax_names` with the names at stake
example : (makeEinMix (fun _ => idOrder) "(pattern c) -> b c".toList "pattern b".toList none
      [kwInt "pattern" 6, kwInt "b" 2] : Py (EinMix Int)).map (fun m => m.pre.isSome) = .ok true ∧
    IsPattern "(pattern c) -> b c".toList [.paren ["pattern".toList, "c".toList]] [word "b", word "c"] :=
  ⟨by rfl, "(pattern c) ".toList, " b c".toList, rfl, isSide_of (by decide) (by decide) (by decide) (by decide),
    isSide_of (by decide) (by decide) (by decide) (by decide)⟩

end

end Einops
