{"id": "C01", "title": "rearrange moves every element to the place the pattern names", "statement": "If rearrange(x, 'L -> R', **sizes) returns y then there is one length for every axis such that each input dimension is the product of the lengths of its group in L, each output dimension is the product of the lengths of its group in R, supplied sizes and numbers equal those lengths, and for every choice of a coordinate for every axis y[C-order position of the coordinates in each group of R] = x[C-order position in each group of L].", "quantifier": "all pattern strings, all tensors (any rank, any shape incl. zero-length axes, any element type), all keyword sizes, all element positions", "why_tests_cant": "The set of patterns, ranks and shapes is infinite; tests only compare a few hand picked patterns against numpy.", "anchors": ["einops/einops.py:rearrange", "einops/einops.py:reduce", "einops/einops.py:_prepare_transformation_recipe", "einops/einops.py:_reconstruct_from_shape_uncached", "einops/einops.py:_apply_recipe"]}
{"id": "C02", "title": "repeat copies along new axes and changes nothing else", "statement": "If repeat(x, 'L -> R', **sizes) returns y then, with lengths as in C01, for every coordinate of every axis of R, y at R's positions equals x at L's positions: the value does not depend on the coordinates of the axes that occur only in R, and those axes have exactly the requested (keyword or numeric) length.", "quantifier": "all pattern strings, tensors, sizes and positions", "why_tests_cant": "Unbounded family of patterns; new axes can be inserted at any position and inside any group, and their internal order depends on hash order.", "anchors": ["einops/einops.py:repeat", "einops/einops.py:_prepare_transformation_recipe", "einops/einops.py:_apply_recipe", "einops/_backends.py:AbstractBackend.add_axes"]}
{"id": "C03", "title": "reduce combines exactly the elements that share the kept coordinates", "statement": "If reduce(x, 'L -> R', op, **sizes) returns y then for every choice of coordinates of the axes of R, y at R's positions is op applied to the list of x at L's positions where the axes occurring only in L run through all their coordinates in C order (each exactly once) and the others are fixed.", "quantifier": "all pattern strings, tensors, sizes, positions, and every reduction (built-in or callable that acts on the elements of the reduced axes)", "why_tests_cant": "A missed or doubly counted element shows up only for particular patterns and shapes; the family is infinite.", "anchors": ["einops/einops.py:reduce", "einops/einops.py:_reduce_axes", "einops/einops.py:_prepare_transformation_recipe", "einops/einops.py:_apply_recipe"]}
{"id": "C04", "title": "exactly which rearrange calls succeed", "statement": "rearrange(x, pattern, **sizes) with Python int sizes returns a tensor if and only if: the pattern has exactly one '->', both sides are well formed, the same axes occur on both sides, no numeric axis other than 1 is used, an ellipsis on the right needs one on the left and the left one is not in parentheses, the number of dimensions fits, every keyword is a used axis and none is called tensor, pattern or reduction (Python binds these), at most one axis per input group has no given length, a group without unknown multiplies to the dimension, and a group with an unknown and known lengths has a non-zero product dividing the dimension, with all lengths non-negative. In every other case it raises.", "quantifier": "all strings, tensors and int-valued keyword sizes", "why_tests_cant": "Both directions quantify over all inputs: a silently accepted inconsistent call cannot be excluded by examples.", "anchors": ["einops/einops.py:_prepare_transformation_recipe", "einops/einops.py:_reconstruct_from_shape_uncached", "einops/parsing.py:ParsedExpression"]}
{"id": "C05", "title": "rearrange is undone by the swapped pattern", "statement": "If y = rearrange(x, 'L -> R', **sizes) and R has no parenthesised ellipsis, then rearrange(y, 'R -> L', **all axis lengths) returns exactly x.", "quantifier": "all patterns, tensors, sizes; keywords that can be passed, i.e. not tensor, pattern, reduction (see C52)", "why_tests_cant": "Infinite patterns and shapes.", "anchors": ["einops/einops.py:rearrange"]}
{"id": "C06", "title": "rearranges compose", "statement": "rearrange(rearrange(x, 'L -> M', ...), 'M -> R', ...) = rearrange(x, 'L -> R', ...) whenever the calls are consistent about the axis lengths.", "quantifier": "all patterns, tensors, sizes", "why_tests_cant": "Infinite patterns and shapes.", "anchors": ["einops/einops.py:rearrange"]}
{"id": "C07", "title": "rearrange neither loses nor duplicates elements", "statement": "The elements of rearrange(x, ...) are a permutation of the elements of x; in particular the number of elements is unchanged.", "quantifier": "all patterns, tensors, sizes", "why_tests_cant": "Infinite patterns and shapes.", "anchors": ["einops/einops.py:rearrange"]}
{"id": "C08", "title": "hash randomisation does not change any result", "statement": "The result (value or exception kind) of rearrange, reduce and repeat is the same for every iteration order Python's sets of axis names may have (PYTHONHASHSEED, insertion history, object addresses of anonymous axes).", "quantifier": "all set iteration orders, patterns, tensors, sizes", "why_tests_cant": "The order differs from process to process; a test run sees one order per process out of factorially many.", "anchors": ["einops/einops.py:_prepare_transformation_recipe", "einops/parsing.py:ParsedExpression.identifiers"]}
{"id": "C09", "title": "order of keyword sizes is irrelevant", "statement": "Permuting the keyword arguments of rearrange/reduce/repeat does not change the result.", "quantifier": "all permutations of keywords, all patterns, tensors", "why_tests_cant": "Factorially many orders, infinite inputs.", "anchors": ["einops/einops.py:reduce"]}
{"id": "C10", "title": "axis names carry no meaning", "statement": "Renaming axes consistently (injectively, to valid names) in pattern and keywords does not change the result of rearrange, reduce and repeat.", "quantifier": "all injective renamings, patterns, tensors, sizes", "why_tests_cant": "Infinite set of names.", "anchors": ["einops/einops.py:reduce", "einops/parsing.py:ParsedExpression"]}
{"id": "C11", "title": "spaces are only separators", "statement": "Two pattern sides with the same sequence of words and parentheses parse to the same result (or both fail): the amount of space, leading/trailing space and space next to parentheses is irrelevant.", "quantifier": "all strings", "why_tests_cant": "Infinite set of strings.", "anchors": ["einops/parsing.py:ParsedExpression"]}
{"id": "C12", "title": "the pattern language is exactly the documented one", "statement": "A pattern side is accepted iff it is a sequence of axis names (identifiers made of letters, digits and underscores that neither start nor end with an underscore), positive decimal numbers, at most one '...' and one-level parenthesised groups of these with no repeated name; and the accepted structure is the one read off the string ('1' is the empty group, 1 inside a group is dropped).", "quantifier": "all strings", "why_tests_cant": "Infinite set of strings; acceptance of one malformed string is enough to violate it.", "anchors": ["einops/parsing.py:ParsedExpression", "einops/parsing.py:AnonymousAxis"]}
{"id": "C13", "title": "ellipsis stands for the unnamed axes in order", "statement": "An operation whose pattern has '...' gives the same result as the pattern in which '...' is replaced by as many fresh axis names as there are unmatched dimensions (in the same order, also inside a right-hand group).", "quantifier": "all patterns with ellipsis, all ranks (no bound on the number of ellipsis axes), tensors, sizes", "why_tests_cant": "Unbounded rank.", "anchors": ["einops/einops.py:_prepare_transformation_recipe"]}
{"id": "C14", "title": "unit axes", "statement": "'1' and '()' are interchangeable anywhere outside parentheses and '1' may be dropped inside parentheses; on the left a unit axis forces length 1 (otherwise EinopsError), on the right it inserts a dimension of length 1.", "quantifier": "all patterns, tensors", "why_tests_cant": "Infinite patterns.", "anchors": ["einops/parsing.py:ParsedExpression", "einops/einops.py:_reconstruct_from_shape_uncached"]}
{"id": "C15", "title": "reduce without dropped axes is a rearrange", "statement": "If every axis of L occurs in R then reduce with any reduction (including 'mean' on integer tensors) returns the same tensor as rearrange and never calls the reduction.", "quantifier": "all patterns, reductions, tensors", "why_tests_cant": "Infinite patterns; callables are arbitrary.", "anchors": ["einops/einops.py:reduce", "einops/einops.py:_reduce_axes"]}
{"id": "C16", "title": "reduce inverts repeat", "statement": "reduce(repeat(x,'L -> R',**s), 'R -> L', op, **all lengths) = x for idempotent reductions (min, max, any, all) if no new axis has length 0, and = n*x for sum where n is the product of the new lengths.", "quantifier": "all patterns, tensors, sizes", "why_tests_cant": "Infinite patterns.", "anchors": ["einops/einops.py:reduce", "einops/einops.py:repeat"]}
{"id": "C17", "title": "reductions can be done in stages", "statement": "Reducing axes in two successive reduce calls equals reducing them in one call, for sum, prod, min, max, any, all.", "quantifier": "all patterns, tensors", "why_tests_cant": "Infinite patterns and shapes.", "anchors": ["einops/einops.py:reduce"]}
{"id": "C18", "title": "a list of tensors means stacking on a new first axis", "statement": "An operation on a list of n equal-shaped tensors equals the operation on their stack along a new leading axis of length n; an empty list raises TypeError.", "quantifier": "all lists of tensors, all patterns", "why_tests_cant": "Unbounded list length.", "anchors": ["einops/einops.py:reduce", "einops/_backends.py:NumpyBackend.stack_on_zeroth_dimension"]}
{"id": "C19", "title": "all frameworks give the same result", "statement": "For the same input, sizes non-negative, the numpy-style backend (expand_dims + tile), the torch/paddle/oneflow-style backend (unsqueeze + expand, one axis at a time reductions), and the array-API path (expand_dims + broadcast_to) return the same tensor for rearrange, repeat and reduce.", "quantifier": "all patterns, tensors, sizes, backends modelled", "why_tests_cant": "Infinite patterns; frameworks are tested on a handful.", "anchors": ["einops/_backends.py:AbstractBackend.add_axes", "einops/_backends.py:TorchBackend", "einops/_backends.py:TinygradBackend", "einops/_backends.py:OneFlowBackend", "einops/einops.py:_apply_recipe_array_api", "einops/array_api.py"]}
{"id": "C20", "title": "earlier calls never change later results", "statement": "The outcome of a rearrange/reduce/repeat call does not depend on which calls were made before it (recipe cache of 256 and shape cache of 1024 entries with LRU eviction).", "quantifier": "all finite histories of calls, any length, including failing calls and evictions", "why_tests_cant": "Histories are unbounded; a stale or confused cache entry needs a particular history.", "anchors": ["einops/einops.py:_reconstruct_from_shape", "einops/einops.py:_prepare_transformation_recipe", "einops/einops.py:_apply_recipe"]}
{"id": "C21", "title": "concurrent callers do not disturb each other", "statement": "When several threads share the caches and their cache look-ups and insertions interleave arbitrarily, every call still returns what it would return alone, and a cache never holds more than its maximum number of entries.", "quantifier": "all numbers of threads, all schedules, all cache sizes", "why_tests_cant": "Schedules cannot be enumerated.", "anchors": ["einops/einops.py:_reconstruct_from_shape", "einops/einops.py:_prepare_transformation_recipe"]}
{"id": "C22", "title": "parse_shape reads off axis lengths", "statement": "parse_shape(x, pattern) returns exactly the map from each named axis to the dimension at its position (ellipsis matching the remaining dimensions, '_' skipped), and raises if the rank does not fit, a numeric or unit axis has another length, or an axis is composed.", "quantifier": "all patterns, all shapes", "why_tests_cant": "Infinite patterns and ranks.", "anchors": ["einops/einops.py:parse_shape"]}
{"id": "C23", "title": "pack puts every input element at its documented place", "statement": "If pack(xs, pattern) returns (y, ps) then the packed axis has length equal to the sum over inputs of the product of their packed dimensions, ps are those packed dimensions, and y[pre, offset_k + C-order position of s, post] = x_k[pre, s, post] for every input k and index.", "quantifier": "all patterns, numbers of inputs, ranks, shapes", "why_tests_cant": "Unbounded numbers, ranks and sizes.", "anchors": ["einops/packing.py:pack", "einops/packing.py:analyze_pattern"]}
{"id": "C24", "title": "unpack undoes pack", "statement": "If pack(xs, p) returns (y, ps) then unpack(y, ps, p) returns xs.", "quantifier": "all patterns, inputs", "why_tests_cant": "Unbounded inputs.", "anchors": ["einops/packing.py:pack", "einops/packing.py:unpack"]}
{"id": "C25", "title": "pack undoes unpack", "statement": "If unpack(x, ps, p) returns ys then pack(ys, p) returns x and the resolved shapes: unpack cuts the axis into consecutive pieces, using every element exactly once.", "quantifier": "all tensors, packed shapes (with or without -1), patterns", "why_tests_cant": "A wrong split position is visible only for particular shape lists.", "anchors": ["einops/packing.py:unpack"]}
{"id": "C26", "title": "unpack rejects shapes that do not add up", "statement": "If no -1 is given and the products of the packed shapes do not sum to the axis length, unpack raises; with one -1 the unknown piece gets exactly the remaining length.", "quantifier": "all packed shapes, all tensors", "why_tests_cant": "Infinite shape lists.", "anchors": ["einops/packing.py:unpack"]}
{"id": "C27", "title": "einsum computes the named-axis formula", "statement": "einsum(x1..xn, 'A1, ..., An -> B')[coordinates of B] = sum over the coordinates of all axes not in B of the product of the xk at the coordinates named by Ak.", "quantifier": "all numbers of tensors, all patterns, all shapes", "why_tests_cant": "Infinite patterns.", "anchors": ["einops/einops.py:einsum", "einops/einops.py:_compactify_pattern_for_einsum"]}
{"id": "C28", "title": "einsum letter assignment is faithful", "statement": "The compact pattern passed to the framework uses the same letter for two axes iff they have the same name, keeps the order and ellipses, and a pattern with more than 52 distinct axes, or an output axis not in the inputs, is rejected.", "quantifier": "all pattern strings", "why_tests_cant": "Infinite patterns; a collision needs a special set of names.", "anchors": ["einops/einops.py:_compactify_pattern_for_einsum", "einops/einops.py:_validate_einsum_axis_name"]}
{"id": "C29", "title": "EinMix computes the documented linear map", "statement": "The output of an EinMix layer is, at the positions of the right side, sum over the axes not on the right of input (at left positions) times weight (at weight axes) plus bias at the bias axes.", "quantifier": "all patterns, weight and bias shapes, inputs", "why_tests_cant": "Infinite patterns.", "anchors": ["einops/layers/_einmix.py:_EinmixMixin", "einops/layers/torch.py:EinMix"]}
{"id": "C30", "title": "EinMix parameter shapes and checks", "statement": "An EinMix layer's weight has the lengths of the weight axes in order; its bias has, for every elementary axis of the output, that axis' length if it is a bias axis and 1 otherwise; construction fails if a weight or bias axis has no size, a weight axis occurs nowhere, a bias axis is not in the output, or a size is given for an unused axis.", "quantifier": "all patterns, weight and bias shapes, sizes", "why_tests_cant": "Infinite patterns.", "anchors": ["einops/layers/_einmix.py:_EinmixMixin.initialize_einmix"]}
{"id": "C31", "title": "layers equal functions", "statement": "Rearrange(p, **s)(x) = rearrange(x, p, **s) and Reduce(p, op, **s)(x) = reduce(x, p, op, **s).", "quantifier": "all patterns, inputs, reductions", "why_tests_cant": "Infinite patterns and ranks.", "anchors": ["einops/layers/__init__.py:RearrangeMixin", "einops/layers/__init__.py:ReduceMixin", "einops/einops.py:_prepare_recipes_for_all_dims", "einops/_torch_specific.py:apply_for_scriptable_torch", "einops/layers/torch.py"]}
{"id": "C32", "title": "serialised layers behave the same", "statement": "A Rearrange/Reduce layer restored from its pickled state gives the same results as the original on every input.", "quantifier": "all layers, all inputs", "why_tests_cant": "Infinite layers and inputs.", "anchors": ["einops/layers/__init__.py:RearrangeMixin.__getstate__", "einops/layers/__init__.py:ReduceMixin.__setstate__"]}
{"id": "C33", "title": "symbolic sizes agree with concrete ones", "statement": "When dimensions or sizes are symbols (checks postponed) that evaluate to certain integers, the shapes, permutation and axes computed are those computed for the integers, whenever the integer call is accepted.", "quantifier": "all recipes, shapes, choices of which sizes are symbolic", "why_tests_cant": "Exponentially many static/dynamic choices, infinite sizes.", "anchors": ["einops/einops.py:_reconstruct_from_shape_uncached", "einops/einops.py:_apply_recipe"]}
{"id": "C34", "title": "declared sizes are checked", "statement": "If a keyword size (a Python int) disagrees with the tensor, rearrange/reduce/repeat raise and never return a tensor.", "quantifier": "all patterns, tensors, sizes", "why_tests_cant": "Infinite inputs.", "anchors": ["einops/einops.py:_reconstruct_from_shape_uncached"]}
{"id": "C35", "title": "backend choice is consistent and lazy", "statement": "get_backend returns a backend that recognises tensors of that type whatever was called before, gives the same answer for a type on every later call, and never instantiates a backend whose framework was not already imported.", "quantifier": "all histories of calls and imports", "why_tests_cant": "Histories are unbounded.", "anchors": ["einops/_backends.py:get_backend"]}
{"id": "C36", "title": "transformation optimiser preserves meaning", "statement": "The (reshape, reduce, transpose) plan returned by _optimize_transformation produces the same flat sequence of elements as the plan given to it, for every valid plan.", "quantifier": "all shapes, reduced axes, orders", "why_tests_cant": "Random testing up to 14 axes only.", "anchors": ["einops/einops.py:_optimize_transformation"]}
{"id": "C37", "title": "transformation optimiser is idempotent", "statement": "Optimising an already optimised plan returns it unchanged.", "quantifier": "all valid plans", "why_tests_cant": "Infinite plans.", "anchors": ["einops/einops.py:_optimize_transformation"]}
{"id": "C38", "title": "enumerate_directions", "statement": "For an n-dimensional tensor the k-th returned tensor has length shape[k] on axis k and 1 elsewhere and its entry at i along axis k is i.", "quantifier": "all shapes", "why_tests_cant": "Infinite shapes.", "anchors": ["einops/einops.py:_enumerate_directions"]}
{"id": "C39", "title": "array-API pack/unpack agree with the main implementation", "statement": "einops.array_api.pack/unpack/rearrange/reduce/repeat return the same as einops.pack/unpack/rearrange/reduce/repeat.", "quantifier": "all inputs", "why_tests_cant": "Infinite inputs.", "anchors": ["einops/array_api.py", "einops/einops.py:_apply_recipe_array_api"]}
{"id": "C40", "title": "malformed patterns raise EinopsError", "statement": "Every rejected pattern with exactly one '->' is rejected with EinopsError, a pattern without exactly one '->' with ValueError, before any data is touched.", "quantifier": "all strings, tensors", "why_tests_cant": "Infinite strings.", "anchors": ["einops/einops.py:_prepare_transformation_recipe", "einops/parsing.py:ParsedExpression"]}
{"id": "C41", "title": "mean is refused for non-floating tensors", "statement": "reduce with 'mean' that drops at least one axis raises NotImplementedError for a tensor that is not of floating type, for every pattern.", "quantifier": "all patterns, tensors", "why_tests_cant": "Infinite patterns.", "anchors": ["einops/einops.py:_reduce_axes"]}
{"id": "C42", "title": "numbers in patterns are axes of their own, with the length they denote", "statement": "Two numeric axes are never identified, even with equal numbers: on the left of reduce each is reduced separately, on the right of repeat each is a new axis, and a numeric axis never matches one on the other side. The length is the number denoted in decimal: a numeral, or a group of numerals, only fits an input dimension of that length (the product), and gives an output dimension of that length.", "quantifier": "all patterns", "why_tests_cant": "Infinite patterns.", "anchors": ["einops/parsing.py:AnonymousAxis", "einops/einops.py:_prepare_transformation_recipe"]}
{"id": "C43", "title": "operations never fail after validation", "statement": "Once a recipe is accepted for the tensor's shape with non-negative sizes, none of the framework calls made (reshape, transpose, tile/expand) can fail: reshape targets always have the right number of elements and the transposition is a permutation.", "quantifier": "all patterns, tensors, sizes", "why_tests_cant": "Infinite inputs.", "anchors": ["einops/einops.py:_apply_recipe", "einops/einops.py:_reconstruct_from_shape_uncached"]}
{"id": "C44", "title": "a callable reduction sees kept axes first and dropped axes last", "statement": "When reduce is given a callable instead of a name and some axis is dropped, the callable is called once with a tensor whose dimensions are the elementary axes of the right side in order followed by the dropped axes in order, holding the elements of the input at these coordinates, and with the tuple of the trailing dimension numbers; its result is only reshaped to the groups of the right side.", "quantifier": "all patterns, tensors, sizes and callables", "why_tests_cant": "Tests use a couple of callables; they cannot cover all patterns and all callables.", "anchors": ["einops/einops.py:_reduce_axes", "einops/einops.py:_apply_recipe"]}
{"id": "C45", "title": "exactly which repeat calls succeed", "statement": "repeat(x, pattern, **sizes) with Python int sizes returns a tensor if and only if the pattern has two well formed sides, no axis of the left disappears, no number but 1 is on the left, every new name has a size, the ellipsis rules hold, the rank fits, every keyword is used and none is called tensor, pattern or reduction, at most one axis per input group has no given length, and there are non-negative lengths fitting the shape that are determined by the given ones.", "quantifier": "all pattern strings, tensors, int sizes, set orders, modelled backends that refuse negative lengths", "why_tests_cant": "The set of accepted calls is infinite and its complement too.", "anchors": ["einops/einops.py:repeat", "einops/einops.py:_prepare_transformation_recipe", "einops/einops.py:_reconstruct_from_shape_uncached"]}
{"id": "C46", "title": "exactly which reduce calls succeed", "statement": "reduce(x, pattern, op, **sizes) with a built-in reduction and Python int sizes returns a tensor if and only if the pattern has two well formed sides, no axis appears only on the right, no number but 1 is on the right, the ellipsis rules hold, the rank fits, every keyword is used and none is called tensor, pattern or reduction, at most one axis per input group has no given length, lengths fit and are determined, a mean that drops an axis is over a floating tensor, and the reduction is defined on the lists of elements it is given.", "quantifier": "all pattern strings, tensors, int sizes, reductions, set orders, modelled backends", "why_tests_cant": "The set of accepted calls is infinite and its complement too.", "anchors": ["einops/einops.py:reduce", "einops/einops.py:_prepare_transformation_recipe", "einops/einops.py:_reconstruct_from_shape_uncached"]}
{"id": "C47", "title": "elementwise functions commute with the operations", "statement": "For every function f of the elements, rearrange(f(x)) = f(rearrange(x)) and repeat(f(x)) = f(repeat(x)), also for lists of tensors, and a call raises on f(x) exactly the exception it raises on x. The same holds for reduce whenever the reduction commutes with f: scaling with sum and mean, increasing functions with min and max. rearrange and repeat commute with elementwise combination of two tensors, and the sum-reduction of x + y is the sum of the reductions.", "quantifier": "all functions, patterns, sizes, tensors or lists of tensors, set orders, modelled backends", "why_tests_cant": "Quantifies over all functions of the elements (parametricity); a bug that depends on values is not seen by tests with a few arrays.", "anchors": ["einops/einops.py:reduce", "einops/einops.py:_apply_recipe"]}
{"id": "C48", "title": "operations in a row are one operation", "statement": "Two calls of rearrange or repeat in a row, 'l -> m' and 'm -> r', that agree about the axis lengths equal one repeat 'l -> r' with the lengths given; repeat without new axes is rearrange; rearrange before or after a reduction is part of the reduction: reduce(rearrange(x, 'l -> m'), 'm -> r', op) and rearrange(reduce(x, 'l -> m', op), 'm -> r') equal reduce(x, 'l -> r', op).", "quantifier": "all sides l, m, r, sizes, tensors, modelled backends, order-insensitive reductions", "why_tests_cant": "Needs all triples of sides.", "anchors": ["einops/einops.py:rearrange", "einops/einops.py:repeat", "einops/einops.py:reduce"]}
{"id": "C49", "title": "laws of einsum", "statement": "Renaming axes consistently does not change what the framework is asked to compute. The order of the tensors does not matter when their descriptions are permuted alike. Another order of the output axes is a rearrange of the result. Contracting some tensors first and the result with the rest equals contracting all at once if the axes summed first occur nowhere else (products of three matrices associate). einsum is additive and homogeneous in every tensor. With one tensor and a pattern without compositions, einsum(x, p) equals reduce(x, p, 'sum') and, when nothing is dropped, rearrange(x, p).", "quantifier": "all patterns with at most 52 names, tensors, ellipses, frameworks whose einsum computes the named-axis formula, elements of any commutative semiring", "why_tests_cant": "Relates calls for all patterns and tensors at once; tests compare a few patterns with numpy.einsum.", "anchors": ["einops/einops.py:einsum", "einops/einops.py:_compactify_pattern_for_einsum"]}
{"id": "C50", "title": "laws of pack and unpack", "statement": "Packing one tensor with 'A * B' is rearrange 'A ... B -> A (...) B'; packing tensors of one shape is rearrange of the list with 'n A ... B -> A (n ...) B'; unpacking one tensor is rearrange 'A (C) B -> A C B' with the entries of its packed shape as sizes, -1 left out. Some of the tensors may be packed first, the result taking their place; unpacking may be done in stages alike. Packing one tensor with exactly one dimension at the star returns it. pack and unpack commute with functions of the elements, exceptions included.", "quantifier": "all patterns, numbers of tensors, shapes, modelled frameworks, set orders, functions of the elements", "why_tests_cant": "Relates pack and unpack to rearrange and to themselves for all patterns and shapes; tests check round trips for a few shapes.", "anchors": ["einops/packing.py:pack", "einops/packing.py:unpack", "einops/packing.py:analyze_pattern"]}
{"id": "C51", "title": "sizes that could be left out, wrong sizes, sizes from parse_shape", "statement": "In a legal call of rearrange, reduce or repeat, giving further keyword sizes that equal the lengths of axes in the pattern changes nothing (result or exception); giving a further size that is not the length of an axis of the pattern makes the call fail; which sizes are given and which inferred does not matter. If parse_shape(x, l) succeeds, its result may be passed to any legal call on x with left side l without effect, and rearrange(rearrange(x, 'l -> r', ...), 'r -> l', **parse_shape(x, l)) is x. Passed to rearrange or repeat of another tensor, the result has x's length at every dimension with the same name, and x's shape if the right side is the pattern of parse_shape (no ellipsis).", "quantifier": "all patterns, shapes, sets of Python int sizes, modelled frameworks, set orders; the first part all reductions including callables and all backends; keywords that can be passed, i.e. not tensor, pattern, reduction (see C52)", "why_tests_cant": "Relates calls with different keyword arguments for all patterns and shapes; tests give one set of sizes per case.", "anchors": ["einops/einops.py:parse_shape", "einops/einops.py:_reconstruct_from_shape_uncached", "einops/einops.py:reduce"]}
{"id": "C52", "title": "axes named like parameters", "statement": "Giving the size of an axis called tensor, pattern or reduction to rearrange, reduce, repeat (also in einops.array_api) always raises TypeError; any other call behaves as the body of the function. The layer constructors refuse exactly self and pattern (Rearrange), also reduction (Reduce), or self, pattern, weight_shape and bias_shape (EinMix). An axis with such a name is fine when its size is not given; consequently repeat can never create such an axis, and rearrange(rearrange(x, 'l -> r', ...), 'r -> l', **parse_shape(x, l)) is x exactly under the condition that no axis of l has such a name.", "quantifier": "all calls: patterns, inputs, reductions, sizes", "why_tests_cant": "names of axes are unbounded strings; the collision is in the calling convention and no test uses these names", "anchors": ["einops/einops.py:460", "einops/einops.py:545-600", "einops/einops.py:603-650", "einops/array_api.py:6-39", "einops/layers/__init__.py:20-26", "einops/layers/__init__.py:70-76", "einops/layers/_einmix.py:16-65"]}
{"id": "C53", "title": "keras layers rebuilt from their configuration", "statement": "For every Rearrange, Reduce or EinMix layer of einops.layers.tensorflow that was constructed, type(layer).from_config(layer.get_config()) does not raise, has the same configuration, and behaves the same on every input (EinMix: creates parameters of the same shapes, and gives the same outcome when the parameters have the same values).", "quantifier": "all patterns, reductions, sizes (also of axes called reduction in Rearrange), all inputs, all set orders in the second process", "why_tests_cant": "tests rebuild a handful of layers; here every constructible layer and every input", "anchors": ["einops/layers/tensorflow.py:27-46", "einops/layers/tensorflow.py:97-103", "einops/layers/__init__.py:20-26", "einops/layers/_einmix.py:16-65"]}
{"id": "C54", "title": "get_backend called from several threads", "statement": "However calls of get_backend in several threads interleave: an undisturbed call behaves as in one thread; a returned backend recognises a tensor of the type asked for, and two calls for one type never get backends of different classes; nothing is instantiated before its framework is imported; a call fails only when no class whose framework is imported recognises the tensor. (The last part is false: see C54_race. What remains: such a failure happens only if another thread loaded that backend during the call, and no later call for such a tensor fails.)", "quantifier": "all schedules of any number of threads, all class hierarchies, all contents of sys.modules and changes of it, all recognisers", "why_tests_cant": "interleavings cannot be enumerated or forced by tests, and the race needs two first calls at the same time", "anchors": ["einops/_backends.py:15-59"]}
{"id": "C55", "title": "gradients: every operation is the transpose of another one", "statement": "For the standard inner product of tensors (exact arithmetic over a commutative semiring): if rearrange(x, 'l -> r') or repeat(x, 'l -> r') returns y, then for every g of the shape of y, rearrange(g, 'r -> l') or reduce(g, 'r -> l', 'sum'), given the lengths of all named axes, returns a z of the shape of x with <y, g> = <x, z>; for reduce(x, 'l -> r', 'sum') the same holds with repeat(g, 'r -> l'), unless the ellipsis is summed over; for einsum with respect to any of its tensors, with the einsum in which this tensor's description and the output are exchanged, whenever that is a legal call.", "quantifier": "all patterns, shapes, sizes, tensors x and g, frameworks for either call, set orders", "why_tests_cant": "tests compare a few numerical gradients on fixed shapes and one framework", "anchors": ["einops/einops.py:230-252", "einops/einops.py:290-442", "einops/einops.py:460-542", "einops/einops.py:841-916"]}
{"id": "C56", "title": "relations between reductions carry over to tensors", "statement": "For two reductions of one tensor by the same pattern (in any two frameworks): a relation that holds between the two reductions of every list of elements holds between corresponding elements of the results, which have the same shape; if one reduction of n elements is a function f_n of the other, then it is so for the tensors, with n the number of elements of x per element of the result. In particular the mean is the sum divided by the number of elements summed, and lies elementwise between minimum and maximum.", "quantifier": "all patterns, shapes, sizes, tensors, pairs of built-in reductions, pairs of frameworks, set orders", "why_tests_cant": "tests compare reductions on fixed patterns and shapes", "anchors": ["einops/einops.py:37-47", "einops/einops.py:230-252", "einops/einops.py:460-542"]}
{"id": "C57", "title": "exact behaviour of unpack", "statement": "For packed shapes whose entries are lengths or -1, and no zero dimension around the star, unpack returns exactly: nothing for no shapes; consecutive pieces if all lengths are known and fill the axis; with one -1 (in a shape without zeros), the earlier shapes cut from the front, the later ones cut from the end, each of the two groups fitting into the axis on its own, and what remains between them (zero if they overlap) being the unknown piece. In all other cases RuntimeError (EinopsError for an illegal pattern, a wrong rank or two shapes with -1). With a zero dimension, exactly the calls without -1 succeed. pack undoes a successful unpack exactly if the pieces do not overlap.", "quantifier": "all tensors, patterns and lists of packed shapes with entries >= -1; numpy-like and torch-like reshape", "why_tests_cant": "needs negative split positions, clipped slices and overlapping pieces for arbitrary lists of shapes", "anchors": ["einops/packing.py:98-190"]}
{"id": "C58", "title": "which exception a failing call raises", "statement": "A pattern without exactly one '->' is a ValueError. Otherwise anything wrong with the pattern, the rank, or the names of the keywords is an EinopsError. Otherwise the first input group (from the left) whose given lengths do not agree with its dimension decides: ZeroDivisionError if one of its lengths is missing and the given ones multiply to 0, EinopsError if not. Otherwise a negative size of an input axis is refused by the framework, and without negative sizes the call is legal: rearrange and repeat succeed. A legal reduce call with a built-in reduction fails only when an axis is dropped, with NotImplementedError for a mean of non-floating elements and otherwise with the error of the framework when the reduction is not defined on the elements it is given (a maximum of no elements). In particular, with positive sizes and one arrow every failing rearrange or repeat raises EinopsError.", "quantifier": "all tensors, patterns (without the character U+2026), integer keyword sizes of any sign, modelled backends; the first three parts for any backend and any reduction", "why_tests_cant": "tests sample a few malformed calls and mostly accept any exception; the claim fixes the exception for every malformed call and excludes all others", "anchors": ["einops/einops.py:170-195", "einops/einops.py:299-410", "einops/einops.py:527-542"]}
{"id": "C59", "title": "functions of tensor libraries written as einops calls", "statement": "With names for dimensions, whatever the names: rearrange 'a b c -> c a b' is transpose; a rearrange with the same axes in the same order on both sides is reshape (elements stay in C order); rearrange of a list with 'n a k b -> a (n k) b' is concatenate and with 'n a b -> a n b' is stack; repeat 'a k b -> a (k r) b' is numpy's repeat, 'a k b -> a (r k) b' is tile and 'a b -> a r b' is a broadcast along a new axis; reduce 'a k b -> a b' combines the elements along one axis in order and reduce 'a b c ->' combines all elements in C order. The results are described by index lists only, for any number of dimensions before and after.", "quantifier": "all tensors of any shape, all names, all permutations, all positions of the axis, all modelled backends", "why_tests_cant": "tests compare with numpy for a few ranks and shapes; the claim is for every rank, shape and choice of names, including empty dimensions", "anchors": ["einops/einops.py:234-292", "einops/einops.py:418-637"]}
{"id": "C60", "title": "starting values of EinMix", "statement": "The sum for one output element of a constructed EinMix layer has fan_in terms for every choice of coordinates of the summed input axes that are not in the weight; so it is a combination of fan_in input elements exactly as documented if every input axis is in the weight or in the output, and fan_in is positive. In torch, oneflow, paddle and tensorflow weights start with expectation 0 and variance 1/fan_in and the bias with expectation 0 and variance 1/(3 fan_in); in flax weights start with a positive expectation and a quarter of the variance.", "quantifier": "all layers accepted by the constructor, all inputs that fit; real numbers instead of floating point", "why_tests_cant": "tests only check that values of some layers are finite and shapes match; the claim relates the range to the number of summed terms for every pattern", "anchors": ["einops/layers/_einmix.py:123-162", "einops/layers/torch.py:33-42", "einops/layers/oneflow.py:22-29", "einops/layers/paddle.py:22-32", "einops/layers/tensorflow.py:70-85", "einops/layers/flax.py:51-57"]}
{"id": "C61", "title": "graph mode: one graph, the right result for every tensor", "statement": "In graph mode einops works on symbolic dimensions before any tensor exists. Building the graph is refused only if the call is refused for every tensor that conforms to the static shape; and for each such tensor for which the call on plain numbers returns a result, the graph returns the same result. If the tensor is not empty, the given lengths are positive and each input dimension whose lengths are all given has that length, the graph returns a result exactly when the call on numbers does. Dimensions reported as UnknownSize never give a wrong result: the framework refuses them or the result is the right one.", "quantifier": "all patterns, reductions, static shapes (any subset of dimensions unknown), sizes possibly symbolic, tensors, all modelled frameworks", "why_tests_cant": "one graph serves infinitely many tensors; every subset of dimensions can be symbolic", "anchors": ["einops/_backends.py:TensorflowBackend.shape", "einops/_backends.py:UnknownSize", "einops/_backends.py:PyTensorBackend.shape", "einops/_backends.py:TFKerasBackend.shape", "einops/einops.py:_reconstruct_from_shape_uncached", "einops/einops.py:_apply_recipe"]}
{"id": "C62", "title": "the caches in graph mode", "statement": "While graphs are built, shapes contain symbols, UnknownSize objects or are wrapped in HashableTuple, and go through the same lru_caches as eager calls. After any history of calls a graph is built exactly as without caches: never from the symbols of another tensor, and refused with the same exception; so each graph computes the right result for its tensors. The only exception is a dimension of length hash(None), which a cache cannot tell from an UnknownSize.", "quantifier": "all histories of eager and graph calls, hashable and unhashable symbols, cache sizes, patterns, sizes", "why_tests_cant": "depends on the history of the process and on which keys are equal; an UnknownSize is equal to everything", "anchors": ["einops/_backends.py:UnknownSize", "einops/_backends.py:HashableTuple", "einops/_backends.py:TensorflowBackend.shape", "einops/einops.py:_reconstruct_from_shape", "einops/einops.py:_apply_recipe"]}
{"id": "C63", "title": "the documented examples hold for all sizes", "statement": "The examples in the docstrings of rearrange, reduce and repeat, with any names and for every size (including 0 where the documented call is legal): stacking, reordering, concatenating and flattening a list of images (or one tensor), splitting images, space-to-depth, pooling with a given kernel or to a given grid, with named or anonymous axes, global pooling, per-channel and per-image reductions with 1 or (), repeating, upsampling and pixelating. Each call succeeds and the element at every place is the documented one; a reduction returns y iff y holds the reductions of the documented blocks. The patterns, being ASCII, are legal whatever the Unicode tables.", "quantifier": "all axis names, batch sizes, image sizes, kernels, repetitions, elements, lists and tensors, modelled backends", "why_tests_cant": "the doctests check one shape each and no elements", "anchors": ["einops/einops.py:rearrange", "einops/einops.py:reduce", "einops/einops.py:repeat"]}
{"id": "C64", "title": "the character '…' in a pattern", "statement": "The parser turns '...' into the character '…' and does not refuse the character itself. In a call of rearrange, reduce or repeat whose pattern has no '...', '…' is the name of one axis: the outcome, results and exceptions, is that with any new name in its place; a length for it is refused. On the right of a pattern with '...' on the left it is the ellipsis for tensors where the ellipsis stands for no axes, and for all other tensors nothing is returned. Every other use (beside other characters, beside '...', left of a pattern with '...' on the right) is EinopsError. So whatever is returned for a pattern with '…' is returned for a pattern without.", "quantifier": "all patterns, sizes, tensors or lists of tensors, keyword sizes, reductions, modelled backends, iteration orders of sets", "why_tests_cant": "the character is not documented and no test contains it; which uses slip through depends on the interplay of parser, checks and an internal length -999999", "anchors": ["einops/parsing.py:ParsedExpression.__init__", "einops/einops.py:_prepare_transformation_recipe"]}
{"id": "C65", "title": "only the needed operations of the framework are called", "statement": "A legal call of rearrange, repeat or reduce makes exactly the operations its pattern needs, in this order: a reshape if some dimension on the left is not exactly one axis, a transposition if the axes change their order, a reduction if axes are dropped, an insertion if axes are new, a reshape if some dimension on the right is not exactly one axis. So a pattern with equal sides returns the tensor itself, permuting axes never reshapes (so it stays a view), rearrange makes at most 3 and the others at most 4 operations. A call that is refused makes none.", "quantifier": "all backends (no law about their operations is assumed), patterns, sizes, tensors, reductions including callables", "why_tests_cant": "the tests look at values, which do not show needless copies; which operations are called depends on the pattern and the shape", "anchors": ["einops/einops.py:_reconstruct_from_shape_uncached", "einops/einops.py:_apply_recipe"]}
{"id": "C66", "title": "an axis on both sides is a batch axis", "statement": "Let n be a name that is not in the pattern, and write it, outside parentheses, anywhere on the left and anywhere on the right of the pattern. A call of rearrange, repeat or reduce (built-in reductions, or a callable reducing elements) with the new pattern returns y iff the dimension of y for n has the length of the dimension of x for n and for every index i of this dimension the call with the old pattern on the i-th slice of x returns the i-th slice of y; it returns at all iff all the calls on slices do (there being at least one slice). So a call on a list with a new first axis gives the stacked results of the calls on its elements.", "quantifier": "all patterns, places of the new axis, sizes, tensors with at least one slice, modelled backends, built-in reductions, iteration orders of sets", "why_tests_cant": "a relation between calls with different patterns on different tensors; tests compare single calls with numpy code for a few patterns", "anchors": ["einops/einops.py:_prepare_transformation_recipe", "einops/einops.py:_apply_recipe", "einops/einops.py:reduce"]}
{"id": "C67", "title": "repr of a layer rebuilds it", "statement": "The repr of a constructed Rearrange, Reduce (reduction given by name) or EinMix layer is a Python expression; evaluating it, in any process, constructs a layer with the same arguments and the same behaviour. Excluded are layers with a size for an axis that is named like a Python keyword (for these the repr is not an expression) and names changed by the NFKC normalisation of Python's parser. Layers of one class with the same repr have the same arguments, without exceptions for names.", "quantifier": "all patterns, weight and bias shapes, sizes (ints), reductions, iteration orders of sets; for what is read back also patterns with arbitrary characters, for which no layer can be constructed", "why_tests_cant": "tests print a few layers and do not evaluate the text; quotes, escapes and unusual names need all strings", "anchors": ["einops/layers/__init__.py:RearrangeMixin.__repr__", "einops/layers/__init__.py:ReduceMixin.__repr__", "einops/layers/_einmix.py:_EinmixMixin.__repr__"]}
{"id": "C68", "title": "laws of EinMix", "statement": "A constructed EinMix layer, called with a legal input, is additive in input and bias together (the result for x+x' and b+b' is the sum of the results) and in weight and bias together, and a factor in input and bias or in weight and bias comes out in the result. Writing the axes of the weight shape in another order and rearranging the weight with the pattern 'old shape -> new shape' gives a layer with the same result. Without parentheses, numbers and bias, EinMix('l -> r', 'w') with weight W computes einsum(x, W, 'l, w -> r').", "quantifier": "all patterns, weight and bias shapes, sizes, inputs and parameters over a commutative semiring, frameworks whose einsum computes the documented sum, iteration orders of sets", "why_tests_cant": "relations between calls on unboundedly many inputs, parameters and patterns", "anchors": ["einops/layers/_einmix.py:_EinmixMixin.initialize_einmix", "einops/layers/torch.py:EinMix.forward", "einops/einops.py:einsum"]}
{"id": "C69", "title": "the documented EinMix layers, for all sizes", "statement": "For the layers of the documentation of EinMix (a linear layer with bias, mixing along the first axis, multiplication of channels, the multi-head linear layer) and the patch embedding of the tutorial: for all sizes (those summed over not 0) the layer is constructed, weight and bias have the documented shapes, the call succeeds, and every element of the result is the explicit sum of products of elements of input and weight, plus the element of the bias. A layer of the tutorial that gives a size for 'hidden' where the axis is called 'hid' is refused with EinopsError.", "quantifier": "all sizes, axis names, inputs and parameters over a commutative semiring", "why_tests_cant": "tests run the layers for a few sizes and compare shapes or averages", "anchors": ["einops/layers/_einmix.py:_EinmixMixin.__init__", "docs/3-einmix-layer.ipynb"]}
{"id": "C70", "title": "the documented uses of pack and unpack, for all sizes", "statement": "For the example of the docstring of pack and the examples of the tutorial (stacking of data layers, splitting, unstacking, the outputs of a detector, predictions of a reinforcement learning model, the class token of a transformer, auto-batching, items from different sources): for all sizes the documented calls succeed, the results have the documented shapes, and every element of the results is the documented element of the arguments. A model that handles each item of a batch on its own, wrapped between pack and unpack, handles items with any number of leading dimensions, each on its own, and gives to batches sent together what it gives to each alone; the classifier of the tutorial, written with reduce, is such a model.", "quantifier": "all sizes, axis names, tensors, per-item models and lists of leading dimensions (sizes outside of '*' not 0 where pack is called)", "why_tests_cant": "the tutorial runs each example for one list of sizes and compares shapes", "anchors": ["einops/packing.py:pack", "einops/packing.py:unpack", "docs/4-pack-and-unpack.ipynb"]}
{"id": "C71", "title": "the documented uses of einsum and parse_shape, for all sizes", "statement": "For the examples in the docstrings of einsum (filtering a batch of images, matrix multiplication with extra dimensions, a product of three tensors, the trace) and parse_shape (sizes taken from another tensor, with '_' for a skipped axis): for all sizes the calls succeed, the result has the documented shape, and each element of the result is the explicit sum of products of elements of the arguments; parse_shape gives exactly the named sizes, and rearrange with these sizes finds the remaining one and moves each element to its place.", "quantifier": "all sizes, names of axes, tensors over a commutative semiring, and (for matrix multiplication) any number of extra dimensions", "why_tests_cant": "the docstrings and the tests evaluate the examples for one shape each", "anchors": ["einops/einops.py:einsum", "einops/einops.py:parse_shape"]}
{"id": "C72", "title": "Which exception a failing einsum, parse_shape, pack or unpack raises", "statement": "For einsum with n>=1 tensors: ValueError iff the pattern has not exactly one arrow; EinopsError if an input or the output is not a legal side; otherwise the first trouble in reading order decides: an input element other than a name or ellipsis gives NotImplementedError, the 53rd name RuntimeError, an output element other than a name or ellipsis NotImplementedError, an output name unknown to the inputs EinopsError; otherwise only the framework can raise. For parse_shape: EinopsError iff the pattern is illegal; ValueError iff the ellipsis is in parentheses (no composed axes, enough dimensions); RuntimeError iff it does not fit the shape otherwise. For pack: EinopsError for an illegal pattern, IndexError for no tensors, otherwise the first tensor with too few dimensions (EinopsError) or a zero dimension around the star (error of the framework) decides, then differing dimensions around the star (error of the framework). For unpack: EinopsError iff the pattern is illegal, the rank differs or two shapes contain -1; nothing but EinopsError and RuntimeError; RuntimeError iff the shapes cannot be completed to the length of the axis (for lengths and -1, non-zero dimensions around the star).", "quantifier": "all patterns (without the character '…'), all shapes, all lists of tensors and packed shapes, all modelled frameworks", "why_tests_cant": "Which of several simultaneous mistakes is reported depends on their relative order in patterns and argument lists of any length; tests look at single mistakes.", "anchors": ["einops/einops.py:_compactify_pattern_for_einsum", "einops/einops.py:einsum", "einops/einops.py:parse_shape", "einops/packing.py:pack", "einops/packing.py:unpack"]}
{"id": "C73", "title": "A batch axis: einsum, pack, unpack and EinMix act slice by slice", "statement": "Write one new axis name in a pattern and let the inputs have that axis. einsum, with the name in the output and in some inputs: slice i of the result is the einsum without the axis of the slices i of the inputs that have it and of the other inputs unchanged. pack, with the name before or after the star: the call returns (y, shapes) iff the calls on all slices return, with the same packed shapes and the slices of y. unpack likewise: the call returns tensors iff the calls on all slices return their slices (a length of -1 included). EinMix, with the name on both sides and not in weight or bias: the slices of the result are the results of the layer without the axis, with the same weight and bias.", "quantifier": "all patterns, positions of the new axis, non-zero lengths (any length for einsum), all tensors and shapes, modelled frameworks for pack, any framework whose einsum computes the formula on legal inputs", "why_tests_cant": "It relates two different calls for every pattern and every shape; tests call with one or two batch sizes and fixed positions of the batch axis.", "anchors": ["einops/einops.py:einsum", "einops/packing.py:pack", "einops/packing.py:unpack", "einops/layers/_einmix.py:_EinmixMixin", "einops/layers/torch.py:EinMix"]}
{"id": "C74", "title": "Rewriting PyTorch programs with einops does not change their results", "statement": "The page 'Writing better code with pytorch and einops' sets programs written with view, permute, transpose, cat, stack, squeeze, chunk, indexing, PixelShuffle and avg_pool2d beside einops calls that replace them. For all sizes the two compute the same tensor: channel shuffle, GLOW's squeeze2d and unsqueeze2d, flattening before a linear layer, theta of the spatial transformer, pixel shuffle (up to the fake axis), the decoder of the language model for any decoding layer, the last hidden state of a bidirectional RNN for any number of layers, FastText's mean over words, concatenation of filters and of banks, splitting into gates, the inputs and outputs of the sequence model, splitting and joining attention heads. Where they differ is stated too: on empty tensors the old channel shuffle fails; view(-1, n) accepts images of a wrong size and mixes them, the einops call keeps one row per image or (with h, w given) fails; the old RNN code loses the batch axis for a single text.", "quantifier": "all tensors of the required rank, all sizes (positive where a theorem says so), all modelled frameworks, all decoding layers", "why_tests_cant": "The page checks most pairs with allclose for one size; the differences occur for sizes the page does not try.", "anchors": ["scripts/pytorch_examples_source/Pytorch.ipynb", "einops/einops.py:rearrange", "einops/einops.py:reduce"]}
{"id": "C75", "title": "Programs with products and their rewrites with einops and einsum have the same results", "statement": "The page 'Writing better code with pytorch and einops' also rewrites programs with matrix products: Gram matrices, attention, multi-head attention of the Transformer, self-attention of GANs. For all sizes, the program with view, permute, transpose, repeat and bmm and the program with rearrange, parse_shape and einsum return the same tensors, whatever the softmax, the scaling and the value filled in for hidden words are. The multi-head programs return the same output, and matrices of attention that differ only in whether the axis of heads is merged into the batch. Without a mask the old multi-head program fails, and the new one computes what it computes with a mask that hides nothing. The Gram matrices differ by the factor of the number of channels, which the old program divides by too.", "quantifier": "all tensors of the required shapes, all positive sizes (zero sizes too where a theorem does not exclude them), all commutative semirings (fields for the Gram matrix), all functions of rows in place of softmax, all modelled frameworks, all einsum functions that compute the named-axis formula", "why_tests_cant": "The page runs the pairs once on random floats of one size and compares approximately, or not at all.", "anchors": ["scripts/pytorch_examples_source/Pytorch.ipynb", "einops/einops.py:rearrange", "einops/einops.py:parse_shape"]}
{"id": "C76", "title": "parse_shape, pack and unpack in graph mode do what they do for the tensors", "statement": "When dimensions are symbols (graph mode of tensorflow, keras, pytensor), pack builds one graph that, for every tensors of these shapes, returns what pack returns for them, and its packed shapes have the values of theirs. unpack builds one graph that returns what unpack returns, is refused while it is built exactly when unpack raises an EinopsError, and gives back the tensors that were packed, provided the framework compares symbols with -1 by identity or the packed dimensions are numbers; where such a comparison is refused (tensorflow 2), unpack with a symbol in the packed shapes always raises a TypeError. parse_shape returns symbols with the right values, works for every pattern of names, underscores and the ellipsis, can be used for keyword sizes of a later call, and refuses a number or a unit over a symbol. With UnknownSize, pack works when only packed dimensions are unknown, and unpack never returns.", "quantifier": "all patterns, all tensors, all reported shapes and values of the symbols, all packed shapes (symbols, numbers, -1), both ways of comparing symbols, all frameworks (round trip: modelled ones)", "why_tests_cant": "The tests of pack and unpack run on imperative frameworks only; the tests of parse_shape with symbols use a few shapes and patterns of names and the ellipsis only. The TypeError of unpack in tensorflow 2 and the refused numbers of parse_shape are not tested.", "anchors": ["einops/packing.py:pack", "einops/packing.py:unpack", "einops/einops.py:parse_shape", "einops/_backends.py:UnknownSize", "einops/_backends.py:HashableTuple"]}
{"id": "C77", "title": "Views are returned when they are possible", "statement": "rearrange of a tensor that lies in memory with strides returns a view of the same memory exactly when the elements of the result lie there with a stride for every dimension, and otherwise a copy; so does repeat in torch, and reduce when it drops no axis. There is such a view exactly if in every dimension of the result each axis moves as far as the next one does in all its length, leaving out axes of length 1, where new axes do not move; for a contiguous tensor exactly if the axes of every dimension of the result come right after each other in the input. Without joined axes there is always a view. All results of unpack are views. In numpy repeat copies as soon as there is a new axis, although a view may be possible, so its docstring does not hold there; reductions over axes and pack return new memory.", "quantifier": "all patterns, keyword sizes and tensors with arbitrary strides (also negative, zero and overlapping), all packed shapes; numpy and torch", "why_tests_cant": "No test of the repository looks at memory. Whether a view exists depends on pattern, sizes and strides together.", "anchors": ["einops/einops.py:rearrange", "einops/einops.py:repeat", "einops/einops.py:_apply_recipe", "einops/packing.py:unpack", "einops/_backends.py:AbstractBackend.add_axes", "einops/_backends.py:TorchBackend.add_axes"]}
{"id": "C78", "title": "Patterns that do different things are told apart by one tensor", "statement": "If all elements of a tensor are different and no axis has length 0, rearrange gives the same result with two right sides (same left side and sizes) exactly if the two right sides have the same dimensions made of the same axes in the same order, leaving out axes of length 1. repeat gives the same result exactly if the shapes agree and every axis of the tensor is in the same dimension with neighbours equally far apart; new axes are not told apart. For reductions the same holds if the reduction tells sets of elements apart (sums of different powers of two), and for max and min if the elements increase. So, if no axis has length 0 or 1 and the ellipsis stands for at least two axes, one call decides: two rearrange patterns that agree for this tensor agree for every tensor and every framework, and two reduce patterns that agree on the sum of powers of two agree for every tensor and every reduction.", "quantifier": "all pairs of patterns with the same left side, all shapes, keyword sizes and tensors with different elements, all frameworks", "why_tests_cant": "A test can show that two given patterns differ for a given tensor, not that every pair of different patterns is told apart, nor that a single agreement settles all inputs.", "anchors": ["einops/einops.py:rearrange", "einops/einops.py:repeat", "einops/einops.py:reduce", "einops/einops.py:_prepare_transformation_recipe", "einops/einops.py:_reconstruct_from_shape_uncached"]}
{"id": "C79", "title": "Error messages say what is wrong", "statement": "The message of an EinopsError raised by rearrange, reduce or repeat is true. A message about the writing of a side names a word, character or parenthesis that is there and is wrong for the reason given; a message that lists axes lists exactly the axes that break the rule it mentions; a message about a keyword is about the first one that cannot be used; a message about sizes gives the length of the first dimension that does not agree and the product of the sizes given for it. There is a message exactly if the pattern has one arrow and breaks a rule or does not fit the sizes (a division by zero aside), it is about the writing of a side exactly if the pattern is not well formed, and it does not depend on the order of Python sets but for the order in which axes are listed. The text shows the pattern, the shape, the sizes and ends with the message.", "quantifier": "all patterns (without the character …), shapes, keyword sizes, operations, frameworks and orders of sets; for the parser all texts and flags", "why_tests_cant": "A test compares the message of a few wrong calls; it cannot show that no wrong call gets a misleading message, that the listed sets are complete, or that hash randomisation does not change the message.", "anchors": ["einops/einops.py:reduce", "einops/einops.py:_prepare_transformation_recipe", "einops/einops.py:_reconstruct_from_shape_uncached", "einops/parsing.py:ParsedExpression.__init__", "einops/parsing.py:ParsedExpression.check_axis_name_return_reason", "einops/parsing.py:AnonymousAxis.__init__"]}
{"id": "C80", "title": "A few tests decide what a program does", "statement": "Take two Python functions whose tensors are made by rearrange, repeat, reduce, pack, unpack and einsum; patterns, sizes, packed shapes, control flow and exceptions may depend on shapes, not on elements. If they only move elements and agree (result or exception) on one list of tensors all elements of which are different, they agree on all tensors of these shapes, whatever the elements are. If they also add elements, two tests with integers are enough for all commutative sums: ones, where no result reaches B, and different powers of B. If they also multiply (prod, einsum), three tests are enough for all commutative semirings: ones below B, twos below 2^D, and the numbers B^(D^k). If they take maxima (or minima), the tests with one element larger than all others are enough.", "quantifier": "all pairs of such functions, all shapes of arguments, all element types with a commutative sum (semiring, semilattice), all frameworks", "why_tests_cant": "This is the statement about tests themselves: comparing with an expected result on one tensor proves nothing unless something like this is known. Tests with arange do not tell a maximum from the last element, or different sums from each other.", "anchors": ["einops/einops.py:reduce", "einops/einops.py:rearrange", "einops/einops.py:repeat", "einops/einops.py:einsum", "einops/packing.py:pack", "einops/packing.py:unpack"]}
{"id": "C81", "title": "EinMix refuses inputs that do not have the declared sizes", "statement": "If a call of an EinMix layer succeeds, every axis of the input that has a declared size has this size. (False of the code. Exactly which sizes are compared: all, if some element of the left side is not one axis; otherwise those of weight axes, by einsum, and those of bias axes other than 1, by the addition. With an einsum that stretches dimensions of length 1, as torch documents, an input of length 1 is accepted for any weight axis; where the bias is added to a new tensor (tensorflow, flax), an input of length 1 is accepted for a bias axis and the output is larger than the pattern says. Whenever a call with a strict einsum and addition in place succeeds, the result is the documented map for the lengths of the input.)", "quantifier": "all EinMix layers that can be constructed, all inputs of whatever shape, all weights and biases of the layer's shapes, all frameworks whose einsum computes legal contractions", "why_tests_cant": "Tests of layers call them with inputs of the right shape; the finitely many wrong shapes of a test do not show which sizes are never compared.", "anchors": ["einops/layers/torch.py:EinMix.forward", "einops/layers/tensorflow.py:EinMix.call", "einops/layers/flax.py:EinMix.__call__", "einops/layers/_einmix.py:_EinmixMixin.initialize_einmix"]}
{"id": "C82", "title": "Warnings: which are issued, when, and what they change", "statement": "A call of reduce, rearrange or repeat that has to prepare its recipe issues one RuntimeWarning for every place where a Python keyword stands as a name, and one FutureWarning for every place where `axis` does: first in the pattern from left to right, then in the keyword arguments; if the call fails, some of the first of these. A call whose recipe is in the cache issues none. Warnings change neither the result nor the caches; if a filter turns some of them into exceptions the call ends with the first of these and the caches stay as they were. The same holds, for the names of their patterns, for parse_shape, pack, unpack, einsum and the construction of layers, which repeats the warnings for every number of dimensions.", "quantifier": "all backends, inputs, patterns, reductions, keyword arguments, iteration orders of sets, states of the caches, histories of calls and sets of filters; all shapes, pack patterns, einsum patterns and layer patterns for the other functions", "why_tests_cant": "Tests check that one warning appears for one pattern in a fresh process; that no other call warns, how often, in which order, and what happens with other filters and other contents of the caches is a statement about all patterns and histories.", "anchors": ["einops/parsing.py:127-152", "einops/parsing.py:50-82", "einops/einops.py:289", "einops/einops.py:392-398", "einops/einops.py:445-457", "einops/packing.py:14-31", "einops/einops.py:653-712", "einops/einops.py:771-822"]}
{"id": "C83", "title": "Messages of pack, unpack, parse_shape and einsum say what is wrong", "statement": "What an exception message of pack, unpack, parse_shape or einsum says about the call is true of it: that names occur twice, that there is no star, that a name is invalid, that tensor number i has fewer dimensions than the pattern needs, that the tensor has the wrong number of dimensions, that more than one length is unknown, that the axis cannot be split as requested; that the pattern has composite axes, that the shape has too few or the wrong number of dimensions, that the length of an anonymous axis is not 1 or differs; that a pattern of einsum has no arrow, contains singletons, parentheses, numbers, too many axes or an unknown axis of the given name, and of several troubles the first one in reading order. Exceptions of these functions without such a message are only those of the framework and of Python listed (empty list, ellipsis in parentheses, second arrow). The claim that an axis cannot be split can be false only if a length is to be inferred and another dimension is 0.", "quantifier": "all patterns (without the character '…' for parse_shape and einsum), tensors, shapes, packed shapes and argument lists; both behaviours of reshape for unpack", "why_tests_cant": "Tests compare a few exception types and never the texts; that a text is never misleading, for any pattern and any shapes, is a claim about all calls.", "anchors": ["einops/packing.py:14-31", "einops/packing.py:70-88", "einops/packing.py:139-190", "einops/einops.py:653-712", "einops/einops.py:755-822", "einops/einops.py:901-916", "einops/array_api.py:51-124"]}
{"id": "C84", "title": "Messages of layers say what is wrong", "statement": "The message of an EinopsError raised while Rearrange, Reduce or EinMix is created is true. A message of Rearrange or Reduce shows the pattern, the reduction and the sizes given, and what follows is true of every tensor of some number of dimensions the layer is meant for; it is never about lengths or the number of dimensions. A message of EinMix is true of the input, output, weight and bias: the axes listed as unrecognized are exactly those of the output found neither in input nor weight, the axis without a size has none, the sizes listed as unused and the weight axes listed as redundant are exactly those, the bias axes listed as not in the output or without sizes are exactly those, a bias axis stands before the ellipsis when that is said, and everything checked earlier is in order. Every EinopsError of the three constructors has one of the messages. Numbers in the output of EinMix are reported as unrecognized identifiers, never with the message about numbers.", "quantifier": "all patterns, weight and bias shapes without the character '…', all reductions, sizes (not named '…' or '...') and orders of sets", "why_tests_cant": "Tests check a few exception types when layers are created and never the texts; that a text is never misleading, whatever the pattern and whatever order Python iterates sets in, is a claim about all calls.", "anchors": ["einops/layers/__init__.py:20-40", "einops/layers/__init__.py:70-90", "einops/layers/_einmix.py:10-12", "einops/layers/_einmix.py:67-187", "einops/einops.py:445-457"]}
{"id": "C85", "title": "EinMix behaves alike whenever its framework checks it", "statement": "Torch, oneflow and paddle check the arguments of EinMix and create its parameters in the constructor, tensorflow creates parameters at the first call, flax does everything at the first call and prepares the inner Rearrange layers still later. Still: if torch makes the layer, tensorflow and flax make one with parameters of the same shapes that computes the same from the same parameters, in tensorflow for every sequence of calls, failing ones included, with parameters drawn once. If torch refuses the arguments (and no size is named like a parameter of the constructor), no call in tensorflow or flax ever succeeds; flax raises the same exception unless it is an EinopsError; tensorflow raises the same exception in the constructor unless a size is negative, and then every call raises or a missing letter is reported. In flax, sizes may have names that are parameters of EinMix, but a size of an axis of the left side named self or pattern makes every call raise TypeError if the layer takes the input apart.", "quantifier": "all patterns, weight and bias shapes, sizes, inputs, sequences of inputs, implementations of einsum and of the inner layers, and drawn parameters", "why_tests_cant": "Tests create valid layers and call them once per framework; which arguments are refused at which time, that no illegal layer ever works and that the frameworks agree on all legal ones are claims about all arguments and all sequences of calls.", "anchors": ["einops/layers/_einmix.py:59-187", "einops/layers/torch.py:32-67", "einops/layers/tensorflow.py:49-95", "einops/layers/flax.py:26-82", "einops/layers/paddle.py:34-58", "einops/layers/oneflow.py:32-54"]}
{"id": "C86", "title": "What the tests of the operations sample holds of all inputs", "statement": "For every number of dimensions of length 2 and every permutation, rearrange with the permuted names permutes the bits of the places (so that for arange the result is the one computed with shifts in the tests). For every shape, permutation and reduction that does not depend on the order of its operands, reduce with permuted names of which some are left out is transposing and then reducing the first dimensions, and with nothing left out it is the transposed tensor. Names and an ellipsis without parentheses move as a whole, for lists too. The identity patterns of the tests return every five-dimensional tensor unchanged, and the equivalent patterns of the tests have the same outcome for every five-dimensional tensor, operation, reduction (callables included) and backend. Patterns with two equal sides never change a tensor.", "quantifier": "all numbers of dimensions, permutations, shapes, elements, names, reductions, modelled backends (all backends for the equivalent patterns)", "why_tests_cant": "The tests draw a few permutations and shapes at random and use one tensor for the fixed patterns; the claims are about every permutation, rank, shape and element.", "anchors": ["einops/tests/test_ops.py:14-39", "einops/tests/test_ops.py:182-208", "einops/tests/test_ops.py:299-328", "einops/tests/test_ops.py:396-413", "einops/einops.py:221-302", "einops/einops.py:503-577"]}
{"id": "C87", "title": "Gradients of EinMix", "statement": "For a layer EinMix('l -> r', weight_shape) without bias with result y and every tensor g of the shape of y, the inner product of y and g is: (1) the inner product of the input and the result of EinMix('r -> l', weight_shape) with the same weight called on g, a layer that can be made and called whenever every input axis is in the output or the weight, the ellipsis is not in parentheses and the weight axes missing in the input are not empty; (2) the inner product of the weight and the contraction of x and g over all axes not in the weight, for layers without ellipsis einsum(rearrange(x, 'l -> l1'), rearrange(g, 'r -> r1'), 'l1, r1 -> weight_shape'). (3) With a bias, y is the result of the same layer without bias and a part whose inner product with g is that of the bias and reduce(g, 'r -> s', 'sum'), s having the bias axes and 1 for the other names of the output.", "quantifier": "all legal layers, inputs, weights, biases, gradients, framework einsums and layer calls meeting their specifications, commutative semirings of elements", "why_tests_cant": "The tests check that one training step changes the parameters of a few layers; that the gradients are again einops calls is a statement about all patterns and shapes.", "anchors": ["einops/layers/_einmix.py:68-187", "einops/layers/torch.py:45-67", "einops/layers/flax.py:37-82", "einops/tests/test_layers.py:301-345"]}
{"id": "C88", "title": "The character '…' in the other functions", "statement": "The parser puts the character '…' in place of '...' and does not refuse it in a pattern. (1) parse_shape: without dots, the word '…' is the name of one axis: with any new name in its place the outcome (also the exception) is the same, the length being reported under that name instead of '…'; beside dots or glued to other characters it is refused with EinopsError. (2) einsum: a '…' is read as '...': writing '...' for it in any of the inputs and in the output does not change the outcome, also where both spellings are mixed; glued to other characters it is refused. (3) pack and unpack refuse every pattern with '…'. (4) EinMix: where both sides consist of names and a '…', writing '...' for both gives the same layer or the same exception; with a '…' in an input where some element is not exactly one axis the constructor raises EinopsError; no layer has '…' in its weight or bias unless a length for '…' is given.", "quantifier": "all patterns, shapes, arguments, framework einsums, orders of sets and Unicode tables", "why_tests_cant": "No test contains the character; the treatment follows from has_ellipsis being set only by dots while each function looks at different attributes of the parsed expression, on infinitely many patterns.", "anchors": ["einops/parsing.py:44-66", "einops/einops.py:653-712", "einops/einops.py:771-822", "einops/packing.py:11-31", "einops/layers/_einmix.py:68-187"]}
{"id": "C89", "title": "Warnings of the constructor of EinMix", "statement": "Constructing an EinMix layer while none of its recipes is cached issues exactly these warnings, in this order: one for each discouraged name (a Python keyword or 'axis') in the words of the pattern and of weight_shape; if an inner Rearrange before the product is needed, those for the input side, and then, once for each number of dimensions it is prepared for (8 with an ellipsis, otherwise 1), twice those for the input side and those for the keyword arguments naming its axes; the same for an inner Rearrange after the product, without keyword arguments; one UserWarning if and only if the weight has no dimensions; those for the words of bias_shape. A constructor that fails issues some of the first of them. If no filter raises one of them the outcome is the one without warnings, otherwise the first that is raised ends the constructor. With names that are not discouraged and a weight with dimensions there is no warning. A bias_shape that is neither None nor a string never makes a layer, and is refused with EinopsError where some other bias_shape would make one.", "quantifier": "all patterns with one arrow, weight and bias shapes, keyword arguments, warning filters, orders of sets and Unicode tables", "why_tests_cant": "Tests construct a few layers and ignore warnings; the number of warnings is a function of the pattern, and which of them is raised depends on the filters.", "anchors": ["einops/layers/_einmix.py:67-187", "einops/layers/torch.py:44-57", "einops/layers/__init__.py:20-40", "einops/parsing.py:127-143"]}
{"id": "C90", "title": "The tensor train of the examples: two ways are right, one is not", "statement": "For every tensor x and every list of cores whose input lengths are the shape of x, whose ranks fit, are not 0, and begin and end with 1, the loop over numpy.einsum of tensor_train_example_numpy returns the flat tensor train: at output indices js the sum over all input indices is of x[is] times the product of the matrices G1[i1, j1] ... Gn[in, jn]. If x has at least two dimensions, the loop over rearrange with an ellipsis and a matrix product returns the same tensor; with one dimension its first rearrange is an EinopsError. The flat loop returns the same tensor if all ranks are 1 and no length is 0; the assertion of the example that it always does is false: with cores of rank 2 it returns other numbers, and with an empty axis it raises ZeroDivisionError.", "quantifier": "all tensors, lists of cores that fit, commutative semirings, backends modelled, lawful einsum functions, orders of sets and Unicode tables", "why_tests_cant": "The example is not collected by pytest and uses tensors of ones only, for which a wrong order of axes cannot be seen.", "anchors": ["einops/tests/test_examples.py:153-191", "einops/einops.py:374-547"]}
{"id": "C91", "title": "The detection layer of the examples: both programs for all pictures", "statement": "For every input of shape [B, A*(5+nc), H, W] and every list of A > 0 anchors, new_way of test_pytorch_yolo_fragment returns a tensor of shape [B, A, H, W, 5+nc] whose predictions at row i and column j are (sigmoid(v) + i) * stride_h, (sigmoid(v) + j) * stride_w, exp(v) times the width and the height of the anchor, and sigmoid(v) for the others, v being element (b, a*(5+nc)+p, i, j) of the input. For square pictures, at least one class, a batch that is not empty and strides that are not 0, old_way returns the flat tensor of the same predictions but with the centre (column * stride_w, row * stride_h); for other pictures it is an error. So with one stride for both directions the assertion of the test holds exactly for pictures of one pixel, which is what the test runs, and for no input with more pixels.", "quantifier": "all inputs, sizes, anchors, strides, fields, functions for sigmoid and exponential, backends modelled, orders of sets and Unicode tables", "why_tests_cant": "The test runs one random input with pictures of one pixel and equal strides; there rows and columns cannot be told apart.", "anchors": ["einops/tests/test_examples.py:194-296", "einops/einops.py:374-547"]}
{"id": "C92", "title": "The convolution programs of the examples for every operation on items", "statement": "Let conv be any operation that treats the items of a batch alike and apart. For every input whose joined last axes have length T*stride, convolve_strided_1d applies it, for each s < stride apart, to the places s, stride + s, 2*stride + s, ... of every item, and puts the results back to such places; convolve_strided_2d does the same in both directions; shufflenet gives the second convolution the channels (q % c1)*c2 + q // c1 of what the first returned; unet_like_1d gives it pairs of neighbours as channels and adds what it returns. With a one-dimensional convolution of any kernel and padding, convolve_strided_1d equals the convolution of the joined axes with dilation stride and stride times the padding; with a two-dimensional convolution, convolve_strided_2d equals the dilated convolution of its input. With the identity, which is what the test uses, convolve_strided_2d returns its input.", "quantifier": "all inputs, sizes, strides, operations on items, kernels, paddings, commutative semirings, backends modelled, orders of sets and Unicode tables", "why_tests_cant": "The test uses the identity in place of the convolution, one shape, and compares numpy with other frameworks only, so what the programs are for is not tested at all.", "anchors": ["einops/tests/test_examples.py:85-111", "einops/einops.py:374-547"]}
{"id": "C93", "title": "Operations on pixels and groups of channels in the examples", "statement": "For every four-dimensional input and every operation that treats the rows of a matrix alike and apart, flattening the pixels with 'b c h w -> (b h w) c', applying the operation and going back with '(b h w) c2 -> b c2 h w' and the sizes of parse_shape(x, 'b _ h w') applies the operation to the channels of every pixel and leaves the pixels where they were, also when sizes are 0. With the slice [:, ::2], which is what the test uses, element [n, c, i, j] is x[n, 2c, i, j]. The sum of the two groups given by 'b (c g) h w -> g b c h w' with g=2 is x[n, 2c, i, j] + x[n, 2c+1, i, j].", "quantifier": "all inputs, sizes, operations on rows, commutative semirings (for the sum), backends modelled, orders of sets and Unicode tables", "why_tests_cant": "The test has one shape and one slice, compares shapes, and compares values between frameworks only, all of which use the same code.", "anchors": ["einops/tests/test_examples.py:40-55", "einops/einops.py:374-547", "einops/einops.py:653-712"]}
{"id": "C94", "title": "A tensor and the list of its items are the same input", "statement": "For every tensor x with at least one item along its first axis, reduce, rearrange and repeat give on list(x) exactly what they give on x, for every pattern, reduction and sizes, failures included. Without items list(x) is empty and every call on it is a TypeError, also where the call on x succeeds. Hence the examples: rearrange(list(x), 'b c h w -> b h w c') has x[n, c, i, j] at [n, i, j, c], and rearrange(list(x), 'b c h w -> h (b w) c') has it at [i, n*W + j, c].", "quantifier": "all tensors, patterns, reductions, sizes, backends modelled, orders of sets and Unicode tables", "why_tests_cant": "The tests cut one tensor of ten items, with two patterns that succeed, and compare results between frameworks rather than with the uncut tensor.", "anchors": ["einops/tests/test_examples.py:71-83", "einops/einops.py:521-527"]}
{"id": "C95", "title": "The pooling programs of the examples give the largest element of every window", "statement": "For every four-dimensional input whose last lengths are multiples H*k, W*l of positive window sizes, reduce(x, 'b c (h h1) (w w1) -> b c h w', 'max', h1=k, w1=l) succeeds, has the shape [B, C, H, W], and each element is an element of its window x[n, c, p*k : p*k+k, r*l : r*l+l] and not less than any other there. For H, W > 0, reduce(x, 'b c h w -> b c () ()', 'max') followed by rearrange(y, 'b c () () -> c b') succeeds, and element [c, n] is the largest of x[n, c].", "quantifier": "all inputs, sizes, window sizes, element types where max of a non-empty list exists and is the largest, backends modelled, orders of sets and Unicode tables", "why_tests_cant": "The test has one shape and an increasing input, for which the largest element of a window is always the last one; it checks shapes and that frameworks agree.", "anchors": ["einops/tests/test_examples.py:57-69", "einops/einops.py:460-542"]}
