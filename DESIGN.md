# Formal model of einops in Lean 4

`lean/Verif/*.lean` holds the model and the specification, `lean/Verif/Proofs/` the lemmas, `lean/Verif/Props/` the
theorems named after the properties in `properties.jsonl` (`C01_…` belongs to property C01), each followed by concrete
cases that meet its hypotheses.  `MANIFEST.json` says which theorems settle which property; `seeded/LOG.jsonl` records
which wrong programs the theorems were tested against.

## 1. Trusted base

* Lean 4.33 and its kernel.  No axioms are added, and there is no `sorry`, `admit`, `native_decide`, `bv_decide`,
  `implemented_by` or `unsafe`.  The axioms every property theorem depends on are listed in section 6.
* The reading of the Python source.  Every model definition cites the file and lines it models and was compared with them
  branch by branch.  Nothing extracts the model from the source automatically.
* The modelled Python library functions (`PyStr.lean`, `Recipe.lean`, `Cache.lean`): `str.split`, `count`, `replace`,
  `isidentifier`, `isalnum`, `isdecimal`, `int`, `dict` (insertion ordered), `set` (any iteration order, the parameter
  `SetOrder`), `sorted`, `functools.lru_cache` (CPython's C implementation).  The Unicode tables are a parameter
  (`PyUnicode`) with a few laws that hold of CPython's tables; `asciiUnicode` is an instance.
* The frameworks.  Tensors are C-order lists with a shape (`Tensor`).  `reshape`, `transpose`, `expand_dims`, `tile`,
  `expand`, `broadcast_to`, reductions, `stack`, `concat`, slicing, `+=` and `+` of a bias (`Tensor.addBias`, `Tensor.addNew`) are reference
  functions meant to be what numpy, torch etc. do.  `einsum` of a framework is any function that computes the formula on
  letters (`EinsumLawful`, met by `refEinsum`).
* Arithmetic is that of any type of elements with the operations of `ElemOps`: rounding, overflow, NaN, dtypes (except
  "is floating"), devices, memory layout beyond strides (C77) and autograd are not modelled.

## 2. Which code is modelled

| module | code |
|---|---|
| `PyStr`, `Prelude` | Python primitives, exceptions as values |
| `Tensor` | framework tensors and primitives |
| `Parsing` | `parsing.py` complete: `ParsedExpression` and its methods |
| `Recipe` | `einops.py`: `_prepare_transformation_recipe`, `_reconstruct_from_shape_uncached` |
| `Apply` | `einops.py`: `_reduce_axes`, `_apply_recipe`, `_apply_recipe_array_api`, `reduce`, `rearrange`, `repeat`; `_backends.py`: the numeric methods of the classes (numpy, jax, torch, cupy, tensorflow, oneflow, paddle, tinygrad … as instances of `Backend`); `_torch_specific.py`: the scripted path; `array_api.py`: `reduce`, `rearrange`, `repeat` |
| `Packing` | `packing.py` complete; `pack`, `unpack` of `array_api.py` |
| `ParseShape` | `parse_shape`, `_enumerate_directions` |
| `Einsum` | `_validate_einsum_axis_name`, `_compactify_pattern_for_einsum`, `einsum` |
| `Layers` | `layers/__init__.py` (mixins, pickling), `_prepare_recipes_for_all_dims`, `forward` of the torch and the other layers |
| `EinMix` | `layers/_einmix.py`, `EinMix` of `layers/torch.py` and the `forward` of the other frameworks |
| `EinMixSizes` | `EinMix.call` of `layers/tensorflow.py` and `EinMix.__call__` of `layers/flax.py` (bias added to a new tensor); hypotheses on `einsum` for lengths that do not agree |
| `EinMixParams` | `_create_parameters` of the five `EinMix` layers: shapes and starting distributions, with real numbers instead of floats |
| `PackUses` | the two programs of the tutorial on `pack` and `unpack` that wrap a model (docs/4-pack-and-unpack.ipynb) |
| `TorchPrograms` | operations of PyTorch and the programs of the left column of scripts/pytorch_examples_source/Pytorch.ipynb that only move elements or take means |
| `TorchProducts` | programs of both columns of the same page with matrix products: Gram matrix, attention, multi-head attention, self-attention |
| `Graph` | graph mode: `_backends.py`: `shape` of the tensorflow, keras and pytensor classes, `UnknownSize`; `einops.py`: `_reconstruct_from_shape_uncached` and `_apply_recipe` on symbolic sizes |
| `GraphPacking` | `parse_shape`, `pack` and `unpack` on symbolic sizes |
| `Views` | memory: addresses as elements, views and copies in numpy and torch (contract of `reshape`, `transpose`, `expand`, `tile`, slices as documented) |
| `GraphCache` | the two caches while graphs are built: symbols, `UnknownSize` and `HashableTuple` as parts of keys |
| `Binding` | how Python binds the keywords of `reduce`, `rearrange`, `repeat` and the constructors of layers; `get_config` of `layers/tensorflow.py` |
| `Cache` | the two caches shared by all calls, their keys, sequential histories and threads |
| `GetBackend` | `get_backend` with `_loaded_backends`, `_type2backend`, `sys.modules` |
| `BackendThreads` | `get_backend` in several threads: one action of one thread at a time |
| `Optimize` | `_optimize_transformation` |
| `Messages` | the messages of `EinopsError`: `parsing.py`, `_prepare_transformation_recipe`, `_reconstruct_from_shape_uncached`, `reduce`; the functions of `Parsing`, `Recipe` and `Apply` again, with messages |
| `OtherMessages` | the messages of `pack`, `unpack`, `parse_shape`, `einsum`, their functions again with messages, and the texts |
| `LayerMessages` | the messages of `Rearrange`, `Reduce` and `EinMix`, their constructors again with messages, and the texts |
| `TransposeSpec` | specification only: `numpy.transpose` by coordinates, numbers read off a side without parentheses |
| `LayerLife` | when `EinMix` checks its arguments and creates parameters: torch/oneflow/paddle at once, tensorflow (`build` at the first call, an object with state), flax (`setup`, inner modules set up when called) |
| `Warnings` | the warnings of `check_axis_name_return_reason`: the functions that read patterns again, with the warnings they issue and the filters that raise them; specification of the warnings expected (`wordsOf`, `warningsFor`, `Heard`) |
| `EinMixWarnings` | the constructor of `EinMix` with its warnings and with a bias shape that may be any object; specification `mixWarnings` |
| `TensorTrain` | the three programs of `tensor_train_example_numpy` (tests/test_examples.py:153-191) for all tensors and cores; `numpy.einsum` and `@` are taken from outside; specification `Cores`, `pathSum`, `coreProduct`, `trainFormula` |
| `Yolo` | `old_way` and `new_way` of `test_pytorch_yolo_fragment` (tests/test_examples.py:194-296) for all inputs; exact arithmetic over a field, sigmoid and exponential are parameters, writing into slices of a new tensor is stacking or joining; specification `rawPrediction`, `oldPrediction`, `newPrediction` |
| `StridedPrograms` | `shufflenet`, `convolve_strided_1d`, `convolve_strided_2d` and `unet_like_1d` of `test_rearrange_examples` (tests/test_examples.py:85-111) for any operation; `Tensor.conv1d` and `Tensor.conv2d` are those of `torch.nn.functional` with exact arithmetic; specification `ActsOnItems`, `convFormula`, `convFormula2` |
| `PixelPrograms` | `test6` and `test7` of `test_rearrange_examples` (tests/test_examples.py:40-55), the slice of `test6` being any operation; `Tensor.evenColumns` is that slice |
| `ListPrograms` | `list(x)` and the programs `test10`, `test11` of `test_rearrange_examples` (tests/test_examples.py:71-83) |
| `PoolPrograms` | `test8` and `test9` of `test_rearrange_examples` (tests/test_examples.py:57-69), windows of any size |
| `Repr` | `__repr__` of the layers, with Python's `repr` of strings |

Specification modules, which do not use the model's helpers except the data types: `PatternSpec` (grammar of patterns),
`Spec` (lengths, positions, `Moves`, `Reduces`, `Accepted`), `Legal`, `Rewriting`, `LawSpec`, `PackSpec`, `EinsumSpec`, `OtherErrors`, `BatchSpec`, `AdjointSpec`,
`EinMixSpec`, `EinsumRef`, `ErrorSpec`, `StartSpec` (mean and variance as integrals), `MarkerSpec`, `StepSpec` (which operations a pattern needs), `SliceSpec` (slices of a tensor), `ApartSpec` (where an axis lies in the result, reductions that tell sets apart), `ProgramSpec` (functions that call the operations), `MessageSpec`, `OtherMessageSpec` and `LayerMessageSpec` (what each message claims), `ReprSpec` (reading a call from Python source text).

Not modelled:

* texts of exceptions raised by Python or a framework, the texts of warnings, `_debug_importing`, type annotations, `einops/experimental`, tests, scripts;
* `asnumpy`, `from_numpy`, `to_numpy`, `create_symbol`, `eval_symbol`, `is_appropriate_type` of concrete frameworks;
* in all modules but `Graph` and `GraphCache` a symbolic size is an integer whose comparisons
  are postponed (`Size.isInt = false`, C33), in `Graph` it is an expression evaluated when the graph runs (C61);
* TorchScript compilation itself: `apply_for_scriptable_torch` is modelled as the Python function it is;
* keras' base class and JSON (a configuration is a dictionary of Python values);
* callable reductions that are unhashable or compare equal to something else; code that modifies the lists inside a
  cached result;
* the random generator behind the starting values of EinMix (their distributions are modelled) and rounding of floats; keras' machinery around `call` (`KerasObject`
  keeps only whether the layer is built);
* negative axis numbers or lengths in `_optimize_transformation` (not called by the operations of this version);
* Threads, except in `get_backend` (`BackendThreads`) and the caches (`Cache`); there each single read or write of a dictionary is atomic.

Simplifications that were found harmless when comparing with the source: CPython's limit of 4300 digits for `int`; lone
surrogates in strings; `identifiers.remove` cannot fail where it is called.

Differences between frameworks known to be outside the model: torch's `amin`/`amax` refuse a reduced dimension of length
0 even when the result has no elements (the model, like numpy, returns the empty tensor); numpy integer sizes divide to
0 instead of raising; `TFKerasBackend` has no `einsum`.

## 3. How exceptions, sizes and sets are treated

Every function returns `Except PyErr α`; statements about failing calls say which exception.  A `Size` is an integer with a
flag saying whether it is a Python `int`: numpy integers and symbols skip some checks in einops.  The order of iterating a
set is a parameter of every model function that does so, and theorems hold for all orders (C08: the results are equal).
An `AnonymousAxis` is represented by where it was created.

A call `f(x, pattern, **sizes)` first binds parameters.  `Verif/Binding.lean` models this: a size for an axis called
`tensor`, `pattern` or `reduction` (for layers: `self`, `pattern`, ...) raises TypeError.  C52 says exactly when, and that
otherwise the body runs.  All other theorems are about the bodies, so where their statements make calls with sizes, the
keywords are understood not to be those names.

Theorems about calls assume that the pattern does not contain the character U+2026: `...` is replaced by that character
internally, so a pattern that contains it literally is parsed as if it were an ellipsis (`C12_literal_marker`).  C64 says what the operations do with such patterns; `C64_returns` is the reason why the
restriction loses nothing.

## 4. Statements and their shape

* Semantics (C01–C03, C44): `Accepted op pattern kw shape GL GR L R len` says that the pattern text is grammatical and
  reads as the groups `GL -> GR`, that `len` gives each axis a length fitting shape and sizes, and that the sizes are
  determined.  `Moves`/`Reduces` compare elements at coordinates of named axes.  "Succeeds iff accepted, and then every
  element is at its place" is proved in both directions (C04, C43, C45, C46), so that later laws (C05–C18, C47–C52, C55–C57, C59) are
  consequences of the specification rather than of the code's stages.
* Proof of the semantics: the five stages of `_apply_recipe` keep the invariant "tensor `t` is indexed by the axes `A` and
  holds `f`".
* C11, C12, C40: an inductive grammar, equivalent to the parser.
* C19, C39: each backend's operations are shown to compute the same tensors.
* C20, C21: caches as a state machine; invariant over all histories, all schedules, all cache sizes.
* C23–C26: packing against coordinates of the inputs.
* C27–C30: einsum over names; the letters are an injective renaming; EinMix as the linear map with bias.
* C31, C32, C53: layers against the functions of the same pattern; pickled and rebuilt layers.
* C33: erasing the flag "is an int" commutes with every step.
* C35, C54: `get_backend` over all histories of calls and imports; over all schedules of several threads.
* C36, C37: loop invariants of the optimiser.
* C58: which exception a failing call raises, as a decision list over the specification; for `reduce` also the exceptions that come from the elements.
* C60: how many terms the sum of an output element of `EinMix` has, against `fan_in`; mean and variance of the starting distributions as integrals.
* C62: cache invariant as in C20; equal keys come from equal arguments.
* C68: the formula of C29 is additive and homogeneous in each argument, and results are determined by it (`Mixes.unique`);
* C69: the formula of C29 for patterns made of names (`plain_mix`), then for each documented pattern;
* C70: `pack_exists`/`unpack_exists` give the result, `packs_iff_at` reads its elements; the models of the tutorial are any
  functions that handle items on their own (`PerItem`);
* C71: C27 (einsum), C22 (parse_shape) and C01 for the documented patterns;
* C72: every trouble evaluates the code to its exception, and without trouble the call succeeds; so the trouble found
  is the only one that counts;
* C73: an entry of a piece, of a contraction or of a layer's output at coordinate i of the new axis only uses entries of the
  inputs at coordinate i (`isPiece_before`, `isPiece_after`, `contracts_batched`, `Mixes.slices`);
* C74: `view`, `permute`, `view` is what a rearrangement of names is (`Named.by_hand`); a length -1 is found from the number of
  elements unless another length is zero (`view_infer`); the other operations by their elements (`select_ok`, `chunk_ok`,
  `stackAt_ok`, `squeeze_ok`);
* C93: the elements of each `rearrange` (C01) and the sizes of `parse_shape` (C71); row `(n*H + i)*W + j` is pixel `[n, i, j]`.
* C94: stacking the items gives a tensor with the elements of the one that was cut (C18), hence the same tensor.
* C95: `C63_pool` and `C63_per_image` say which lists are reduced; a tensor with the results exists because no list is empty.
* C92: the elements of each `rearrange` (C01), the hypothesis `ActsOnItems` in between; for `C92_dilated` place `t * stride + s` of the dilated sum is place `t` of the sum over the places of class `s`, also at the borders.
* C91: every step of both programs is followed with a predicate `Has x s F` (shape `s`, elements `F`); the grid of cells is numbered `(a * n + i) * n + j`.
* C90: induction over the cores. For the einsum loop the invariant is the formula with some indices already summed; for the loop with an ellipsis it is an exact correspondence of the elements of the two intermediate results, `z[is, j * r + a] = y[a, is, j]`; for the flat loop with ranks 1 both hold the same data.
* C89: composition of `Tells` (C82) along the constructor. The names written into the patterns of the inner layers deserve the same warnings as the words of the side they come from, because numbers and the ellipsis deserve none.
* C88: `prepareDots` turns `...` into '…', so that the parser gives for both spellings the same expression up to `has_ellipsis`
  (`parse_respelled`); `einsum` never looks at that attribute, `EinMix` only in its checks and in the patterns of the inner layers.
* C87: both inner products are one sum over all axes of input times weight times gradient (`Mixes.dot`); the layer with exchanged
  sides is constructed by the conditions of C30, and the bias part is summed axis by axis (`sum_bias`).
* C86: the bits of a C-order place of a tensor of shape `[2]*n` are its coordinates (`ravel_bits`), so transposing (C59) permutes
  bits. A transposed tensor is a `Moves` of axes, and `Moves.reduces` carries a reduction over it in both directions. Patterns of
  names and an ellipsis are accepted by construction (`dots_moves`); the fixed patterns of the tests are instances of C13.
* C85: the three life cycles run the same checks in different orders; the proofs follow the branches side by side. `keras_cases` and `make_setup` express the constructor of torch by the stages of the others, from which agreement and the exceptions to it are read off.
* C84: again by forgetting messages and following the branches. A layer is prepared for several numbers of dimensions; that its message is not about lengths follows because all rules that do not depend on lengths are decided by `prepare_cases` (C72). The layer that `EinMix` makes for its input has a pattern built from the input, which by itself obeys all rules but the one on unknown axes of a group.
* C83: forgetting messages gives the functions of the model, so the theorems on exceptions (C72) say which calls fail; the message is found by following the same branches. For `unpack` that the split fails means that no list of positive and zero lengths fits the request (`Resolves`), which needs the lengths around the star to be positive when a length is inferred.
* C82: every function with warnings is, for all filters at once, the function without them cut at the first warning that is raised (`Tells`); this is preserved by composition. The words read by the parser are the pieces between separators, shown by induction over the characters with the word being read as part of the text still to come.
* C81: a call that succeeds shows the lengths that were compared: by the `Rearrange` layer before the contraction (it gets the sizes of
  all names of the left side), by `einsum` (hypothesis `EinsumStrict` or `EinsumCasts`), and by the addition of the bias. With the sizes
  that were not compared replaced by the lengths of the input, and bias axes of size 1 left out, the layer is one to which the proof of
  C29 applies.
* C80: a function that calls the operations commutes with every function of elements with which its reductions commute (induction
  over the calls, from C47 and C50); tensors with different elements can be mapped to any tensors of the same shapes. For sums
  the symbols are multisets, told apart by the digits of one number; for products polynomials, told apart by the same argument
  used twice; for maxima finite sets, told apart by membership of single elements.
* C79: the model with messages equals the model without them when messages are forgotten (`erase_…`), so everything known about
  the latter carries over; each message is traced to the branch that raises it, with the invariant of the parser (what has been read
  consists of the words seen so far).
* C78: coordinates that are 0 except along one axis show in which dimension the axis lies and how far apart neighbours are; together
  with the product of the lengths this determines the order in a dimension. For reductions the set of elements behind each element of
  the result is recovered first (`TellsSets`), for maxima its largest index. `Accepted.same_right` goes back from groups of axes to
  the pattern, which is where two ellipsis axes are needed.
* C77: memory is in the elements: the same model runs on tensors of addresses (`Cell`). An axis-wise stride function describes a
  view (`Lies`), it is carried along by `Moves`, and evaluating it at unit coordinates gives the condition on joined axes
  (`Lies.isView_iff`, `joins_iff`); for contiguous tensors the strides are the weights of C order, which decrease, so equality
  means being neighbours (`weight_neighbours`). The calls are followed through the operations of C65 (`views_call`).
* C76: every expression has the value of the number in its place, through the loops of `unpack` too (`runLoop_values`); a packed
  shape without -1 never has the product -1;
* C75: the elements of every intermediate tensor of the old and of the new program are written as functions of the
  coordinates (`Has3`, `Has4`), step by step; a contraction written with letters is a sum over the other letters (`letters`).
* C67: a reader of calls in Python source is a function, and reading inverts writing character by character;
* C66: the axes of the pattern with the new name are those of the old pattern up to the labels of numbers (`exists_between`), so a call is legal iff
  the call on a slice is, and `Moves`/`Reduces` fall apart into slices;
* C65: for arbitrary backends the five stages are compared with the list of needed operations;
* C64: the parser's run over the tokens is related to the run over the tokens with a name (or `...`) in place of '…'; the recipes
  are equal position by position (`buildRecipe_plan`);
* C63: one lemma for patterns made of names and units (`plain_moves`, `plain_reduces`); each documented pattern is an instance with the
  positions computed.
* C61: a relation between sizes and symbolic sizes is preserved by every step of `_reconstruct_from_shape`, in one direction for `UnknownSize` (which loses information) and exactly otherwise; that the reshape finds wrong divisions is arithmetic (`reshape_detects`).

## 5. Properties that are false as stated

The code does not have these properties in full; each has a theorem with a concrete witness, and the part that holds is
proved with the suffix `_partial`.

| property | what goes wrong | witness |
|---|---|---|
| C10 | the size of an axis cannot be given when the axis is called `tensor`, `pattern` or `reduction` | `C10_reserved_name` |
| C20, C21 | a numpy-integer size is not checked; the result is cached under a key equal to that of an int size | `C20_numpy_size`, `C21_numpy_size` |
| C25, C26 | `unpack` with a -1 and known lengths longer than the axis overlaps pieces; dimensions of length 0; no shapes; entries below -1 | `C25_overlap`, `C25_zero_dimension`, `C26_overlap`, `C26_zero_dimension`, `C26_no_shapes`, `C26_below_minus_one` |
| C31 | layers have no recipe for an ellipsis of 8 or more dimensions (KeyError), and raise KeyError for a wrong number of dimensions; the torch layers lack `any`, `all`, callables and the dtype test of `mean`; `Rearrange` takes a size for an axis called `reduction`, `rearrange` does not | `C31_many_dimensions`, `C31_wrong_dimensions`, `C31_torch_any`, `C31_torch_mean`, `C31_torch_callable`, `C31_reserved_name` |
| C39 | `array_api.reduce` does not refuse `mean` of non-floating elements | `C39_mean_not_floating` |
| C54 | of two first calls in two threads one may raise RuntimeError although the framework is imported | `C54_race` |

Other surprising behaviour that is proved: `C02_torch_negative_length`, `C12_literal_marker`, `C22_parenthesised_ellipsis`,
`C28_parenthesised_ellipsis`, `C29_unchecked_size`, `C29_many_dimensions`, `C30_unit_in_weight`, `C30_fan_in`,
`C30_many_axes`, `C60_comment_false`, `C33_unchecked`, `C61_unchecked`, `C61_unchecked_groups`, `C61_unchecked_empty`, `C62_none_hash`, `C35_order_matters`, `C35_broken_framework`.

## 6. Axioms

Output of `#print axioms` for the 519 theorems of `MANIFEST.json`:

* `[propext]`: `C20_lru`, `C65_no_transpose`
* `[propext, Quot.sound]`: `C33_symbolic`, `C35_recognises`, `C35_stable`, `C35_lazy`, `C35_returned_made`, `C35_once`, `C35_history_independent`, `C36_refused`, `C39_pack_array_api`, `C39_unpack_array_api`, `C50_elementwise`, `C54_alone`, `C54_recognises`, `C54_same_class`, `C54_lazy`, `C54_loaded`, `C61_frameworks`, `C72_unpack_only`, `C76_parse_shape`, `C88_pack`, `C88_unpack`
* `[propext, Classical.choice, Quot.sound]`: all other theorems (496)

## 7. Tests against wrong programs

`seeded/LOG.jsonl` has one line per mutant of the model, built in a copy of the project outside this directory.
`theorems_failed` lists what did not compile any more: usually a lemma that speaks about the edited definition;
`property_theorems_depending_on_them` are the property theorems whose proofs go through it.  A mutant counts as killed
only if that happens; the rare survivors were compared with the English claims and are either equivalent programs or led
to a tightened theorem, as the line says.
