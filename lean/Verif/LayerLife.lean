import Verif.EinMixSizes
import Verif.Binding

/-!
# When an `EinMix` layer does its checks and creates its parameters

In torch, oneflow and paddle the constructor does all of it (`pyEinMix`).  In tensorflow the constructor checks the
arguments and `build`, which keras runs at the first call, creates the parameters.  In flax the constructor only keeps
the arguments; `setup` runs at the first call, and the two inner `Rearrange` layers do their own `setup` when they are
called.

Values of the parameters are random; here they are what a function `draw` gives for the two shapes.  Keras may add text to
an exception that leaves `call`; the class remains.
-/

namespace Einops

universe u

variable {α : Type u}

/-! ### torch, oneflow, paddle -/

/-- `EinMix(...)(x)` in torch (_einmix.py:16, 59-65, layers/torch.py:32-67); oneflow and paddle alike -/
def eagerOnce [PyUnicode] [Add α] (so : Nat → SetOrder) (call : Layer α → Tensor α → Py (Tensor α))
    (f : Str → List (Tensor α) → Py (Tensor α)) (draw : List Nat → Option (List Nat) → Tensor α × Option (Tensor α))
    (pattern weightShape : Str) (biasShape : Option Str) (kw : List (Str × Size)) (x : Tensor α) : Py (Tensor α) :=
  match pyEinMix so pattern weightShape biasShape kw with
  | .error e => .error e
  | .ok l =>
    let p := draw l.mix.weightShape l.mix.biasShape
    l.mix.forward call f p.1 p.2 x

/-! ### tensorflow -/

/-- The attributes of an `EinMix` layer of tensorflow after `__init__` (tensorflow.py:49-69).  `_params` has the lengths as
they were given; of the bounds only `_fan_in`. -/
structure KerasEinMix (α : Type u) where
  pre : Option (Layer α)
  post : Option (Layer α)
  weight : List Size
  bias : Option (List Size)
  einsumPattern : Str
  fanIn : Int

/-- `EinMix.__init__` in tensorflow: `initialize_einmix` (_einmix.py:67-187), `_create_parameters` stores its arguments
(tensorflow.py:50-53).  A negative `_fan_in` makes `(3 / _fan_in) ** 0.5` complex, which raises nothing. -/
def kerasInit [PyUnicode] (so : Nat → SetOrder) (pattern weightShape : Str) (biasShape : Option Str)
    (kw : List (Str × Size)) : Py (KerasEinMix α) :=
  match einmixPlan pattern weightShape kw with
  | .error e => .error e
  | .ok p =>
    match makeRearrange so p.pre with
    | .error e => .error e
    | .ok pre =>
      match makeRearrange so (p.post.map (fun s => (s, []))) with
      | .error e => .error e
      | .ok post =>
        match einmixSizes p.left p.right p.weight kw with
        | .error e => .error e
        | .ok () =>
          match einmixWeight p.right p.weight kw with
          | .error e => .error e
          | .ok (w, fan) =>
            match einmixBias p.right kw biasShape with
            | .error e => .error e
            | .ok b =>
              if fan.val = 0 then .error .zeroDivision
              else
                match einmixEinsum p.left p.right p.weight with
                | .error e => .error e
                | .ok s => .ok ⟨pre, post, w, b, s, fan.val⟩

/-- `EinMix(pattern, weight_shape, bias_shape, **kw)` in tensorflow -/
def pyKerasEinMix [PyUnicode] (so : Nat → SetOrder) (pattern weightShape : Str) (biasShape : Option Str)
    (kw : List (Str × Size)) : Py (KerasEinMix α) :=
  match bindRest ["self".toList, "pattern".toList, "weight_shape".toList, "bias_shape".toList] kw with
  | .error e => .error e
  | .ok kw => kerasInit so pattern weightShape biasShape kw

/-- `EinMix.build` (tensorflow.py:70-85): `add_weight` refuses negative lengths -/
def KerasEinMix.build (k : KerasEinMix α) : Py (EinMix α) :=
  match createParameters k.weight k.bias with
  | .error e => .error e
  | .ok (w, b) => .ok ⟨k.pre, k.post, w, b, k.einsumPattern, k.fanIn⟩

/-- A layer object of keras: `built`, and then the weight and the bias -/
structure KerasObject (α : Type u) where
  layer : KerasEinMix α
  built : Option (EinMix α × Tensor α × Option (Tensor α))

/-- `layer(x)`: keras runs `build` unless the layer is built (a `build` that raises leaves it so), then `call`
(tensorflow.py:87-95) -/
def KerasObject.call [Add α] (call : Layer α → Tensor α → Py (Tensor α)) (f : Str → List (Tensor α) → Py (Tensor α))
    (draw : List Nat → Option (List Nat) → Tensor α × Option (Tensor α)) (o : KerasObject α) (x : Tensor α) :
    Py (Tensor α) × KerasObject α :=
  match o.built with
  | some (m, w, b) => (m.forwardNew call f w b x, o)
  | none =>
    match o.layer.build with
    | .error e => (.error e, o)
    | .ok m =>
      let p := draw m.weightShape m.biasShape
      (m.forwardNew call f p.1 p.2 x, ⟨o.layer, some (m, p.1, p.2)⟩)

/-- the outcomes of `layer(x)` for inputs one after the other; what would be drawn changes with time -/
def KerasObject.calls [Add α] (call : Layer α → Tensor α → Py (Tensor α)) (f : Str → List (Tensor α) → Py (Tensor α))
    (draws : Nat → List Nat → Option (List Nat) → Tensor α × Option (Tensor α)) :
    Nat → KerasObject α → List (Tensor α) → List (Py (Tensor α))
  | _, _, [] => []
  | t, o, x :: xs =>
    let r := o.call call f (draws t) x
    r.1 :: KerasObject.calls call f draws (t + 1) r.2 xs

/-- `EinMix(...)(x)` in tensorflow -/
def kerasOnce [PyUnicode] [Add α] (so : Nat → SetOrder) (call : Layer α → Tensor α → Py (Tensor α))
    (f : Str → List (Tensor α) → Py (Tensor α)) (draw : List Nat → Option (List Nat) → Tensor α × Option (Tensor α))
    (pattern weightShape : Str) (biasShape : Option Str) (kw : List (Str × Size)) (x : Tensor α) : Py (Tensor α) :=
  match pyKerasEinMix so pattern weightShape biasShape kw with
  | .error e => .error e
  | .ok k => (KerasObject.call call f draw ⟨k, none⟩ x).1

/-! ### flax -/

/-- An `EinMix` module of flax (flax.py:37-41): a dataclass, whose constructor checks nothing.  `sizes` is an argument of
its own, so an axis may have any name. -/
structure FlaxEinMix where
  pattern : Str
  weightShape : Str
  biasShape : Option Str
  sizes : List (Str × Size)

/-- What `setup` leaves in a module: patterns and sizes of the inner `Rearrange` modules (whose own `setup` has not run),
shapes of the parameters, the string for `einsum` -/
structure FlaxBound where
  pre : Option (Str × List (Str × Size))
  post : Option (Str × List (Str × Size))
  weightShape : List Nat
  biasShape : Option (List Nat)
  einsumPattern : Str
  fanIn : Int

/-- `EinMix.setup` (flax.py:43-72, _einmix.py:67-187).  `param` refuses negative lengths. -/
def FlaxEinMix.setup [PyUnicode] (m : FlaxEinMix) : Py FlaxBound :=
  match einmixPlan m.pattern m.weightShape m.sizes with
  | .error e => .error e
  | .ok p =>
    match einmixSizes p.left p.right p.weight m.sizes with
    | .error e => .error e
    | .ok () =>
      match einmixWeight p.right p.weight m.sizes with
      | .error e => .error e
      | .ok (w, fan) =>
        match einmixBias p.right m.sizes m.biasShape with
        | .error e => .error e
        | .ok b =>
          if fan.val = 0 then .error .zeroDivision
          else
            match createParameters w b with
            | .error e => .error e
            | .ok (w, b) =>
              match einmixEinsum p.left p.right p.weight with
              | .error e => .error e
              | .ok s => .ok ⟨p.pre, p.post.map (fun s => (s, [])), w, b, s, fan.val⟩

/-- `Rearrange(pattern, sizes)(x)` in flax (flax.py:26-34): `setup` makes a `RearrangeMixin(self.pattern, **self.sizes)` -/
def flaxRearrange [PyUnicode] (so : Nat → SetOrder) (call : Layer α → Tensor α → Py (Tensor α)) (pattern : Str)
    (sizes : List (Str × Size)) (x : Tensor α) : Py (Tensor α) :=
  match pyRearrangeLayer so pattern sizes with
  | .error e => .error e
  | .ok l => call l x

/-- `if self.pre_rearrange is not None: input = self.pre_rearrange(input)` (flax.py:75-76, 80-81) -/
def flaxOpt [PyUnicode] (so : Nat → SetOrder) (call : Layer α → Tensor α → Py (Tensor α)) :
    Option (Str × List (Str × Size)) → Tensor α → Py (Tensor α)
  | none, x => .ok x
  | some (p, kw), x => flaxRearrange so call p kw x

/-- `EinMix.__call__` (flax.py:74-82) after `setup` -/
def FlaxBound.apply [PyUnicode] [Add α] (so : Nat → SetOrder) (call : Layer α → Tensor α → Py (Tensor α))
    (f : Str → List (Tensor α) → Py (Tensor α)) (m : FlaxBound) (weight : Tensor α) (bias : Option (Tensor α))
    (x : Tensor α) : Py (Tensor α) :=
  match flaxOpt so call m.pre x with
  | .error e => .error e
  | .ok x =>
    match f m.einsumPattern [x, weight] with
    | .error e => .error e
    | .ok y =>
      match addOptNew y bias with
      | .error e => .error e
      | .ok y => flaxOpt so call m.post y

/-- `EinMix(...)(x)` in flax: `init_with_output`, or `apply` with parameters that `init` made -/
def flaxOnce [PyUnicode] [Add α] (so : Nat → SetOrder) (call : Layer α → Tensor α → Py (Tensor α))
    (f : Str → List (Tensor α) → Py (Tensor α)) (draw : List Nat → Option (List Nat) → Tensor α × Option (Tensor α))
    (m : FlaxEinMix) (x : Tensor α) : Py (Tensor α) :=
  match m.setup with
  | .error e => .error e
  | .ok s =>
    let p := draw s.weightShape s.biasShape
    s.apply so call f p.1 p.2 x

end Einops
