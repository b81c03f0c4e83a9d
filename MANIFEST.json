{
 "claims": [
  {
   "property": "C01",
   "status": "proved",
   "theorems": [
    "Einops.C01_rearrange_moves"
   ],
   "note": ""
  },
  {
   "property": "C02",
   "status": "proved",
   "theorems": [
    "Einops.C02_repeat_copies",
    "Einops.C02_torch_negative_length"
   ],
   "note": "For backends that refuse negative new lengths, or non-negative sizes. C02_torch_negative_length is the witness that the restriction is needed: torch's expand reads -1 as keep and returns length 1."
  },
  {
   "property": "C03",
   "status": "proved",
   "theorems": [
    "Einops.C03_reduce_combines",
    "Einops.C03_reduce_callable"
   ],
   "note": ""
  },
  {
   "property": "C04",
   "status": "proved",
   "theorems": [
    "Einops.C04_rearrange_call",
    "Einops.C04_rearrange_accepts"
   ],
   "note": ""
  },
  {
   "property": "C05",
   "status": "proved",
   "theorems": [
    "Einops.C05_rearrange_undo"
   ],
   "note": ""
  },
  {
   "property": "C06",
   "status": "proved",
   "theorems": [
    "Einops.C06_rearrange_compose",
    "Einops.C06_rearrange_compose_elementary",
    "Einops.C06_rearrange_compose_lengths"
   ],
   "note": ""
  },
  {
   "property": "C07",
   "status": "proved",
   "theorems": [
    "Einops.C07_rearrange_permutes"
   ],
   "note": ""
  },
  {
   "property": "C08",
   "status": "proved",
   "theorems": [
    "Einops.C08_hash_order"
   ],
   "note": ""
  },
  {
   "property": "C09",
   "status": "proved",
   "theorems": [
    "Einops.C09_keyword_order"
   ],
   "note": ""
  },
  {
   "property": "C10",
   "status": "partial",
   "theorems": [
    "Einops.C10_rename_partial",
    "Einops.C10_rename_call_partial",
    "Einops.C10_reserved_name"
   ],
   "note": "Partial: proved for the bodies of the functions and for calls whose keywords are no parameter names; false for sizes of axes called tensor, pattern or reduction (C10_reserved_name)."
  },
  {
   "property": "C11",
   "status": "proved",
   "theorems": [
    "Einops.C11_spaces",
    "Einops.C11_spaces_operations"
   ],
   "note": ""
  },
  {
   "property": "C12",
   "status": "proved",
   "theorems": [
    "Einops.C12_language",
    "Einops.C12_flat_order",
    "Einops.C12_literal_marker"
   ],
   "note": ""
  },
  {
   "property": "C13",
   "status": "proved",
   "theorems": [
    "Einops.C13_ellipsis",
    "Einops.C13_empty_ellipsis"
   ],
   "note": ""
  },
  {
   "property": "C14",
   "status": "proved",
   "theorems": [
    "Einops.C14_units",
    "Einops.C14_unit_dimension"
   ],
   "note": ""
  },
  {
   "property": "C15",
   "status": "proved",
   "theorems": [
    "Einops.C15_reduce_without_drop"
   ],
   "note": ""
  },
  {
   "property": "C16",
   "status": "proved",
   "theorems": [
    "Einops.C16_reduce_of_repeat",
    "Einops.C16_idempotent",
    "Einops.C16_min_max",
    "Einops.C16_sum"
   ],
   "note": ""
  },
  {
   "property": "C17",
   "status": "proved",
   "theorems": [
    "Einops.C17_reduce_stages",
    "Einops.C17_reduce_stages_elementary",
    "Einops.C17_exact_reductions"
   ],
   "note": ""
  },
  {
   "property": "C18",
   "status": "proved",
   "theorems": [
    "Einops.C18_list_is_stack"
   ],
   "note": ""
  },
  {
   "property": "C19",
   "status": "proved",
   "theorems": [
    "Einops.C19_backends_agree_move",
    "Einops.C19_backends_agree_reduce",
    "Einops.C19_array_api"
   ],
   "note": ""
  },
  {
   "property": "C20",
   "status": "partial",
   "theorems": [
    "Einops.C20_success",
    "Einops.C20_outcome_partial",
    "Einops.C20_bounded",
    "Einops.C20_lru",
    "Einops.C20_pattern_caches",
    "Einops.C20_numpy_size"
   ],
   "note": "False as stated for calls that fail: a numpy-integer size is not checked and its cached result is found by a later call with an equal int (C20_numpy_size). Proved for every call that succeeds, after any history (C20_success), and for all outcomes when sizes are ints (C20_outcome_partial); the caches of analyze_pattern and einsum patterns too."
  },
  {
   "property": "C21",
   "status": "partial",
   "theorems": [
    "Einops.C21_success",
    "Einops.C21_outcome_partial",
    "Einops.C21_bounded",
    "Einops.C21_progress",
    "Einops.C21_numpy_size"
   ],
   "note": "Interleavings of atomic cache look-ups and insertions as in CPython's lru_cache; any number of threads, any schedule, any cache sizes. Full for calls that succeed alone (C21_success) and for the bounds; outcomes of failing calls only for int sizes (C21_numpy_size, see C20)."
  },
  {
   "property": "C22",
   "status": "proved",
   "theorems": [
    "Einops.C22_parse_shape",
    "Einops.C22_errors",
    "Einops.C22_parenthesised_ellipsis"
   ],
   "note": ""
  },
  {
   "property": "C23",
   "status": "proved",
   "theorems": [
    "Einops.C23_pack",
    "Einops.C23_pack_covers",
    "Einops.C23_errors"
   ],
   "note": ""
  },
  {
   "property": "C24",
   "status": "proved",
   "theorems": [
    "Einops.C24_unpack_pack"
   ],
   "note": ""
  },
  {
   "property": "C25",
   "status": "partial",
   "theorems": [
    "Einops.C25_pack_unpack_partial",
    "Einops.C25_overlap",
    "Einops.C25_zero_dimension"
   ],
   "note": "Proved when the dimensions around the star are not zero, packed_shapes is not empty, entries are at least -1 and, if a -1 is present, the known lengths fit into the axis. Each hypothesis has a witness that the statement fails without it (C25_overlap, C25_zero_dimension). C57_round_trip says exactly when the round trip works."
  },
  {
   "property": "C26",
   "status": "partial",
   "theorems": [
    "Einops.C26_unpack_partial",
    "Einops.C26_rejects_partial",
    "Einops.C26_errors",
    "Einops.C26_overlap",
    "Einops.C26_zero_dimension",
    "Einops.C26_no_shapes",
    "Einops.C26_below_minus_one"
   ],
   "note": "Exact behaviour proved under the same hypotheses as C25; witnesses C26_overlap, C26_zero_dimension, C26_no_shapes, C26_below_minus_one show that the code accepts wrong shapes without them. C57 describes the behaviour exactly in all cases with entries at least -1."
  },
  {
   "property": "C27",
   "status": "proved",
   "theorems": [
    "Einops.C27_einsum",
    "Einops.C27_framework",
    "Einops.C27_call",
    "Einops.C27_arguments"
   ],
   "note": "For frameworks whose einsum computes the formula on letters (EinsumLawful; met by refEinsum), exact arithmetic, tensors whose shapes are the lengths of the named axes (size-1 broadcasting of the framework is outside the assumption)."
  },
  {
   "property": "C28",
   "status": "proved",
   "theorems": [
    "Einops.C28_accepts",
    "Einops.C28_letters",
    "Einops.C28_unique",
    "Einops.C28_errors",
    "Einops.C28_parenthesised_ellipsis"
   ],
   "note": "Exact set of accepted patterns, reading and letters. C28_parenthesised_ellipsis: '(...)' is an ordinary axis for einsum."
  },
  {
   "property": "C29",
   "status": "proved",
   "theorems": [
    "Einops.C29_output",
    "Einops.C29_succeeds",
    "Einops.C29_rearrangements",
    "Einops.C29_unchecked_size",
    "Einops.C29_many_dimensions"
   ],
   "note": "EinMix.forward of torch (the other frameworks' code is the same up to names) with any einsum that obeys EinsumLawful, exact arithmetic. C29_output: whatever a call returns is the documented linear map. C29_succeeds: with determined lengths it returns, except for 8 or more ellipsis dimensions in a layer with rearrangements (KeyError, C29_many_dimensions). Inputs whose dimensions fit lengths equal to the given sizes; a contradicting size of an input axis outside groups and weight is not noticed (C29_unchecked_size)."
  },
  {
   "property": "C30",
   "status": "proved",
   "theorems": [
    "Einops.C30_arrow",
    "Einops.C30_sides",
    "Einops.C30_outcome",
    "Einops.C30_constructed",
    "Einops.C30_shapes",
    "Einops.C30_refuses",
    "Einops.C30_unit_in_weight",
    "Einops.C30_fan_in",
    "Einops.C30_many_axes"
   ],
   "note": "All outcomes of the constructor. ValueError for 1 in the weight, ZeroDivisionError for a summed axis of length 0, KeyError for more than 26 names are proved as the code's behaviour."
  },
  {
   "property": "C31",
   "status": "partial",
   "theorems": [
    "Einops.C31_reserved_name",
    "Einops.C31_layer_partial",
    "Einops.C31_other_dimensions",
    "Einops.C31_construction",
    "Einops.C31_torch_partial",
    "Einops.C31_many_dimensions",
    "Einops.C31_wrong_dimensions",
    "Einops.C31_torch_any",
    "Einops.C31_torch_mean",
    "Einops.C31_torch_callable"
   ],
   "note": "False as stated: an ellipsis covering 8 or more dimensions raises KeyError in a layer (C31_many_dimensions), a wrong number of dimensions raises KeyError instead of EinopsError, torch layers lack any/all and callables and the dtype test of mean. Proved for all other inputs, including which exception is raised, and for the torch layers."
  },
  {
   "property": "C32",
   "status": "proved",
   "theorems": [
    "Einops.C32_pickle"
   ],
   "note": "Also for different set iteration orders in the restoring process, for the generic and the torch layers. Assumes the pattern does not contain U+2026."
  },
  {
   "property": "C33",
   "status": "proved",
   "theorems": [
    "Einops.C33_symbolic",
    "Einops.C33_symbolic_call",
    "Einops.C33_unchecked"
   ],
   "note": "Symbols are sizes with a value whose comparisons are postponed; the converse fails (C33_unchecked)."
  },
  {
   "property": "C34",
   "status": "proved",
   "theorems": [
    "Einops.C34_sizes_checked"
   ],
   "note": ""
  },
  {
   "property": "C35",
   "status": "proved",
   "theorems": [
    "Einops.C35_recognises",
    "Einops.C35_stable",
    "Einops.C35_lazy",
    "Einops.C35_returned_made",
    "Einops.C35_once",
    "Einops.C35_complete",
    "Einops.C35_history_independent",
    "Einops.C35_order_matters",
    "Einops.C35_broken_framework"
   ],
   "note": "All histories of calls and changes of sys.modules; constructors and recognisers are arbitrary and may raise. Recognition of the tensor at hand needs recognisers that look only at the type. Witnesses: C35_order_matters (two classes recognising one type), C35_broken_framework (an imported but broken framework breaks calls for other tensors). Single thread."
  },
  {
   "property": "C36",
   "status": "proved",
   "theorems": [
    "Einops.C36_same_elements",
    "Einops.C36_not_longer",
    "Einops.C36_refused"
   ],
   "note": "Every valid plan, every tensor and element type, every reduction including order-dependent or failing ones. Natural-number axes and lengths."
  },
  {
   "property": "C37",
   "status": "proved",
   "theorems": [
    "Einops.C37_idempotent",
    "Einops.C37_nothing_left"
   ],
   "note": "Every valid plan; also that no mergeable neighbours are left."
  },
  {
   "property": "C38",
   "status": "proved",
   "theorems": [
    "Einops.C38_enumerate_directions"
   ],
   "note": ""
  },
  {
   "property": "C39",
   "status": "partial",
   "theorems": [
    "Einops.C39_pack_array_api",
    "Einops.C39_unpack_array_api",
    "Einops.C39_moves_array_api",
    "Einops.C39_reduce_array_api",
    "Einops.C39_mean_not_floating"
   ],
   "note": "pack/unpack: equal for every input. rearrange/repeat/reduce: same results; a mean of non-floating elements is refused only by einops.reduce (C39_mean_not_floating)."
  },
  {
   "property": "C40",
   "status": "proved",
   "theorems": [
    "Einops.C40_malformed"
   ],
   "note": ""
  },
  {
   "property": "C41",
   "status": "proved",
   "theorems": [
    "Einops.C41_mean_refused"
   ],
   "note": ""
  },
  {
   "property": "C42",
   "status": "proved",
   "theorems": [
    "Einops.C42_numbers_are_names",
    "Einops.C42_decimal",
    "Einops.C42_numeral_dimension"
   ],
   "note": "CPython's limit of 4300 digits for int() is not modelled."
  },
  {
   "property": "C43",
   "status": "proved",
   "theorems": [
    "Einops.C43_no_failure_move",
    "Einops.C43_no_failure_reduce"
   ],
   "note": ""
  },
  {
   "property": "C44",
   "status": "proved",
   "theorems": [
    "Einops.C44_callable_argument"
   ],
   "note": ""
  },
  {
   "property": "C45",
   "status": "proved",
   "theorems": [
    "Einops.C45_repeat_call",
    "Einops.C45_repeat_accepts"
   ],
   "note": ""
  },
  {
   "property": "C46",
   "status": "proved",
   "theorems": [
    "Einops.C46_reduce_call",
    "Einops.C46_reduce_accepts"
   ],
   "note": ""
  },
  {
   "property": "C47",
   "status": "proved",
   "theorems": [
    "Einops.C47_elementwise",
    "Einops.C47_rearrange",
    "Einops.C47_repeat",
    "Einops.C47_rearrange_binary",
    "Einops.C47_repeat_binary",
    "Einops.C47_scale",
    "Einops.C47_monotone",
    "Einops.C47_sum_additive"
   ],
   "note": "Exceptions included. Instances for sum, mean, min, max in exact arithmetic on rationals."
  },
  {
   "property": "C48",
   "status": "proved",
   "theorems": [
    "Einops.C48_moves_compose",
    "Einops.C48_moves_compose_elementary",
    "Einops.C48_repeat_without_new",
    "Einops.C48_reduce_of_rearrange",
    "Einops.C48_rearrange_of_reduce"
   ],
   "note": "For calls that agree about the lengths; with a middle side without parentheses they always do (C48_moves_compose_elementary)."
  },
  {
   "property": "C49",
   "status": "proved",
   "theorems": [
    "Einops.C49_renaming",
    "Einops.C49_operand_order",
    "Einops.C49_output_order",
    "Einops.C49_stages",
    "Einops.C49_linear",
    "Einops.C49_reduce",
    "Einops.C49_rearrange",
    "Einops.C49_stages_needs_separation"
   ],
   "note": "Exact arithmetic. C49_stages_needs_separation: without separation of the summed axes the two ways differ."
  },
  {
   "property": "C50",
   "status": "proved",
   "theorems": [
    "Einops.C50_pack_one",
    "Einops.C50_pack_list",
    "Einops.C50_unpack_one",
    "Einops.C50_pack_stages",
    "Einops.C50_unpack_stages",
    "Einops.C50_pack_identity",
    "Einops.C50_elementwise"
   ],
   "note": ""
  },
  {
   "property": "C51",
   "status": "proved",
   "theorems": [
    "Einops.C51_right_sizes",
    "Einops.C51_wrong_size",
    "Einops.C51_which_sizes",
    "Einops.C51_parse_shape_sizes",
    "Einops.C51_parse_shape_undo",
    "Einops.C51_shape_like",
    "Einops.C51_same_shape"
   ],
   "note": "Sizes are Python ints. An ellipsis in parentheses on the right is excluded where the call is undone, as in C05."
  },
  {
   "property": "C52",
   "status": "proved",
   "theorems": [
    "Einops.C52_functions",
    "Einops.C52_layers",
    "Einops.C52_new_axis",
    "Einops.C52_undo",
    "Einops.C52_undo_reserved_name"
   ],
   "note": "The condition in the undo law is necessary: C52_undo_reserved_name."
  },
  {
   "property": "C53",
   "status": "proved",
   "theorems": [
    "Einops.C53_rearrange",
    "Einops.C53_reduce",
    "Einops.C53_einmix"
   ],
   "note": "Keras' from_config is cls(**config); the JSON encoding of a configuration and keras' base class are not modelled."
  },
  {
   "property": "C54",
   "status": "partial",
   "theorems": [
    "Einops.C54_alone",
    "Einops.C54_recognises",
    "Einops.C54_same_class",
    "Einops.C54_lazy",
    "Einops.C54_loaded",
    "Einops.C54_complete_partial",
    "Einops.C54_race",
    "Einops.C54_two_objects"
   ],
   "note": "An atomic action is one read or write of a dictionary, the copy of _loaded_backends.items(), one is_appropriate_type, or one instantiation. Part of the property is false: with two first calls at once one of them can raise RuntimeError although the framework is imported (C54_race); C54_complete_partial is what remains."
  },
  {
   "property": "C55",
   "status": "proved",
   "theorems": [
    "Einops.C55_repeat",
    "Einops.C55_rearrange",
    "Einops.C55_reduce",
    "Einops.C55_einsum"
   ],
   "note": "Exact arithmetic over a commutative semiring; einsum under EinsumLawful (the framework's einsum computes the formula). The patterns are legal sides and no ellipsis stands in parentheses on the right (such a pattern cannot be turned round). C55_reduce needs the ellipsis, if any, to be kept: an example shows that the exchanged pattern is refused otherwise."
  },
  {
   "property": "C56",
   "status": "proved",
   "theorems": [
    "Einops.C56_related",
    "Einops.C56_function",
    "Einops.C56_mean",
    "Einops.C56_between"
   ],
   "note": "C56_mean and C56_between over exact rational numbers."
  },
  {
   "property": "C57",
   "status": "proved",
   "theorems": [
    "Einops.C57_unpack",
    "Einops.C57_no_elements",
    "Einops.C57_errors",
    "Einops.C57_round_trip"
   ],
   "note": ""
  },
  {
   "property": "C58",
   "status": "proved",
   "theorems": [
    "Einops.C58_arrow",
    "Einops.C58_pattern",
    "Einops.C58_sizes",
    "Einops.C58_negative",
    "Einops.C58_legal",
    "Einops.C58_rearrange",
    "Einops.C58_repeat",
    "Einops.C58_positive",
    "Einops.C58_reduce"
   ],
   "note": ""
  },
  {
   "property": "C59",
   "status": "proved",
   "theorems": [
    "Einops.C59_transpose",
    "Einops.C59_reshape",
    "Einops.C59_concatenate",
    "Einops.C59_stack",
    "Einops.C59_repeat",
    "Einops.C59_tile",
    "Einops.C59_new_axis",
    "Einops.C59_reduce_axis",
    "Einops.C59_reduce_all"
   ],
   "note": "The library functions (transpose, reshape, concatenate, stack, repeat, tile) are given by element formulas in the statements."
  },
  {
   "property": "C60",
   "status": "proved",
   "theorems": [
    "Einops.C60_start",
    "Einops.C60_flax",
    "Einops.C60_terms",
    "Einops.C60_terms_exact",
    "Einops.C60_comment_false"
   ],
   "note": "Real numbers instead of floats; a distribution is a uniform density on an interval. The comment in the source ('fan_in' is the number of summed terms) fails when an input axis is neither in the weight nor in the output: C60_comment_false."
  },
  {
   "property": "C61",
   "status": "proved",
   "theorems": [
    "Einops.C61_graph",
    "Einops.C61_traced",
    "Einops.C61_exact",
    "Einops.C61_frameworks",
    "Einops.C61_unknown",
    "Einops.C61_unknown_plain",
    "Einops.C61_unchecked",
    "Einops.C61_unchecked_groups",
    "Einops.C61_unchecked_empty"
   ],
   "note": "Symbols are expressions in the dimensions of the tensor, evaluated when the graph runs; HashableTuple (only caching) is not modelled. C61_unchecked, C61_unchecked_groups, C61_unchecked_empty: what graph mode does not check and the call on numbers does."
  },
  {
   "property": "C62",
   "status": "proved",
   "theorems": [
    "Einops.C62_history",
    "Einops.C62_graph",
    "Einops.C62_exceptions",
    "Einops.C62_unhashable",
    "Einops.C62_none_hash"
   ],
   "note": "C62_history: same sizes as without caches; C62_graph: the graph computes the call's result; C62_exceptions: same exception. Hypotheses: a number stands for one HashableTuple object (OneObject) and no size is hash(None) (Apart); C62_none_hash shows what happens otherwise. C62_unhashable: unhashable symbols do not enter the cache."
  },
  {
   "property": "C63",
   "status": "proved",
   "theorems": [
    "Einops.C63_images",
    "Einops.C63_channels_first",
    "Einops.C63_along_height",
    "Einops.C63_along_width",
    "Einops.C63_flatten",
    "Einops.C63_split",
    "Einops.C63_space_to_depth",
    "Einops.C63_to_channels",
    "Einops.C63_repeat_height",
    "Einops.C63_repeat_both",
    "Einops.C63_upsample",
    "Einops.C63_pool",
    "Einops.C63_pool_adaptive",
    "Einops.C63_pool_global",
    "Einops.C63_per_channel",
    "Einops.C63_per_image",
    "Einops.C63_downsample",
    "Einops.C63_pixelate",
    "Einops.C63_pool_numbers",
    "Einops.C63_ascii"
   ],
   "note": "Every documented call has its own theorem with the index formula written out. Pattern strings are any strings that spell the documented structure (IsPattern); the documented ASCII strings do so for every Unicode table (C63_ascii)."
  },
  {
   "property": "C64",
   "status": "proved",
   "theorems": [
    "Einops.C64_name",
    "Einops.C64_keyword",
    "Einops.C64_ellipsis_none",
    "Einops.C64_ellipsis_some",
    "Einops.C64_refused",
    "Einops.C64_returns"
   ],
   "note": "C64_name: outcome with a new name in place of '…'; C64_keyword, C64_refused: EinopsError; C64_ellipsis_none / C64_ellipsis_some: '...' on the left and '…' on the right; C64_returns: nothing is returned that is not returned for a pattern without '…'. Lexes, Alone, Tok.put are specification notions (PatternSpec, MarkerSpec)."
  },
  {
   "property": "C65",
   "status": "proved",
   "theorems": [
    "Einops.C65_steps",
    "Einops.C65_refused",
    "Einops.C65_same",
    "Einops.C65_no_reshape",
    "Einops.C65_reshape_unused",
    "Einops.C65_no_transpose",
    "Einops.C65_move_no_reduce",
    "Einops.C65_only_repeat_adds",
    "Einops.C65_how_many"
   ],
   "note": "The backend is an arbitrary record of functions, so equality for all backends says which functions are called. stepsOf (StepSpec) is written from the axes of the two sides. C65_refused assumes sizes >= 0: a negative size passes the checks and the framework is asked."
  },
  {
   "property": "C66",
   "status": "proved",
   "theorems": [
    "Einops.C66_rearrange",
    "Einops.C66_repeat",
    "Einops.C66_reduce",
    "Einops.C66_callable",
    "Einops.C66_returns",
    "Einops.C66_list",
    "Einops.C66_slices"
   ],
   "note": "C66_rearrange, C66_repeat, C66_reduce, C66_callable: returns y iff the slices of y are returned; C66_returns: whether something is returned; C66_list: lists; C66_slices: slices exist and can be stacked. SlicesAre and placeBetween (SliceSpec) speak of entries and of counting the parts of a side."
  },
  {
   "property": "C67",
   "status": "proved",
   "theorems": [
    "Einops.C67_read_rearrange",
    "Einops.C67_read_reduce",
    "Einops.C67_rearrange",
    "Einops.C67_reduce",
    "Einops.C67_einmix",
    "Einops.C67_distinct_rearrange",
    "Einops.C67_distinct_reduce",
    "Einops.C67_distinct_einmix",
    "Einops.C67_keyword"
   ],
   "note": "ReprSpec reads a fragment of Python (string literals with escapes, names, integers, calls) as a function; PyLang is an arbitrary table of keywords, normal forms and printable characters. C67_keyword is the counterexample for an axis named 'in'."
  },
  {
   "property": "C68",
   "status": "proved",
   "theorems": [
    "Einops.C68_input",
    "Einops.C68_weight",
    "Einops.C68_scale",
    "Einops.C68_weight_order",
    "Einops.C68_einsum"
   ],
   "note": "Arithmetic is exact (a commutative semiring). The laws hold for calls that are legal in the sense of C29_succeeds."
  },
  {
   "property": "C69",
   "status": "proved",
   "theorems": [
    "Einops.C69_linear",
    "Einops.C69_height",
    "Einops.C69_channels",
    "Einops.C69_heads",
    "Einops.C69_patches",
    "Einops.C69_tutorial_refused"
   ],
   "note": "Stated for all names of axes; examples show that the documented spellings are patterns of this form for every choice of Unicode tables."
  },
  {
   "property": "C70",
   "status": "proved",
   "theorems": [
    "Einops.C70_docstring",
    "Einops.C70_rgbd",
    "Einops.C70_split",
    "Einops.C70_unstack",
    "Einops.C70_detection",
    "Einops.C70_actions",
    "Einops.C70_batches",
    "Einops.C70_universal",
    "Einops.C70_sources",
    "Einops.C70_vit",
    "Einops.C70_classifier",
    "Einops.C70_ascii"
   ],
   "note": "throughModel and universalPredict are the two programs of the tutorial. Stated for all patterns with the given numbers of axes; examples show that the documented spellings are such patterns for every choice of Unicode tables."
  },
  {
   "property": "C71",
   "status": "proved",
   "theorems": [
    "Einops.C71_formula",
    "Einops.C71_filter",
    "Einops.C71_matmul",
    "Einops.C71_trace",
    "Einops.C71_parse_shape",
    "Einops.C71_sizes",
    "Einops.C71_ascii"
   ],
   "note": "The einsum of the framework is any function with the numpy meaning (EinsumLawful), as in C27. In the docstring the output of the matrix product is '... out_dim', the extra dimensions come first."
  },
  {
   "property": "C72",
   "status": "proved",
   "theorems": [
    "Einops.C72_einsum_pattern",
    "Einops.C72_einsum",
    "Einops.C72_parse_shape",
    "Einops.C72_pack",
    "Einops.C72_unpack",
    "Einops.C72_unpack_only",
    "Einops.C72_unpack_runtime"
   ],
   "note": "Equivalences: a call fails with a given exception if and only if the corresponding trouble (stated with patterns, shapes and positions) is there and no earlier one. `backend` stands for whatever exception the framework raises. For unpack the RuntimeError case is stated under the hypotheses of C26."
  },
  {
   "property": "C73",
   "status": "proved",
   "theorems": [
    "Einops.C73_einsum",
    "Einops.C73_pack_before",
    "Einops.C73_pack_after",
    "Einops.C73_unpack_before",
    "Einops.C73_unpack_after",
    "Einops.C73_einmix"
   ],
   "note": "The laws follow from the entrywise descriptions of C23/C57 (pack, unpack), C27 (einsum), C29 (EinMix). The axis after the star is counted from the end because the packed tensors may differ in rank. For EinMix legality of both layers is assumed; the bias of the layer with the axis has one more dimension of length 1."
  },
  {
   "property": "C74",
   "status": "proved",
   "theorems": [
    "Einops.C74_channel_shuffle",
    "Einops.C74_unsqueeze2d",
    "Einops.C74_squeeze2d",
    "Einops.C74_view_rows",
    "Einops.C74_flatten_rows",
    "Einops.C74_flatten",
    "Einops.C74_localization",
    "Einops.C74_localization_silent",
    "Einops.C74_theta",
    "Einops.C74_pixel_shuffle",
    "Einops.C74_decoder",
    "Einops.C74_hidden",
    "Einops.C74_hidden_squeeze",
    "Einops.C74_cat",
    "Einops.C74_banks",
    "Einops.C74_gates",
    "Einops.C74_steps",
    "Einops.C74_outputs",
    "Einops.C74_heads",
    "Einops.C74_join",
    "Einops.C74_fasttext"
   ],
   "note": "The operations of PyTorch are modelled in TorchPrograms by their documentation (memory layout plays no role). Programs with matrix products (attention, Gram matrix, YOLO) are not in this property. Layers such as convolutions and LSTMs are left out: the theorems are about the parts of the programs that the page rewrites. pixel shuffle is stated for r*r channels, as on the page; FastText for at least one word and one feature; steps for at least one time step."
  },
  {
   "property": "C75",
   "status": "proved",
   "theorems": [
    "Einops.C75_gram",
    "Einops.C75_attention",
    "Einops.C75_multi_head",
    "Einops.C75_no_mask",
    "Einops.C75_self_attention"
   ],
   "note": "torch.einsum is a parameter about which EinsumLawful is assumed (as in C27); arithmetic is exact; bmm, masked_fill, repeat and softmax are modelled by their documentation. Linear layers, convolutions, dropout and layer norm are left out: the programs are modelled between them, where they are the same in both columns. YOLO is not modelled."
  },
  {
   "property": "C76",
   "status": "proved",
   "theorems": [
    "Einops.C76_parse_shape",
    "Einops.C76_parse_shape_names",
    "Einops.C76_parse_shape_numbers",
    "Einops.C76_parse_shape_keywords",
    "Einops.C76_pack",
    "Einops.C76_pack_unknown",
    "Einops.C76_unpack",
    "Einops.C76_unpack_refused",
    "Einops.C76_round_trip",
    "Einops.C76_unpack_symbols",
    "Einops.C76_unpack_unknown",
    "Einops.C76_tensorflow2",
    "Einops.C76_minus_one",
    "Einops.C76_parse_number"
   ],
   "note": "How a framework compares a symbol with a number is a parameter with two values (SymEq): by identity (pytensor, tensorflow 1), or a TypeError (tensorflow 2). Errors while a framework builds a slice or a reshape are modelled as errors of the run. A symbol whose value is -1 in packed shapes is excluded (C76_minus_one shows why)."
  },
  {
   "property": "C77",
   "status": "proved",
   "theorems": [
    "Einops.C77_refused",
    "Einops.C77_rearrange",
    "Einops.C77_repeat_torch",
    "Einops.C77_repeat_numpy",
    "Einops.C77_reduce",
    "Einops.C77_strides",
    "Einops.C77_view_iff",
    "Einops.C77_no_joining",
    "Einops.C77_contiguous",
    "Einops.C77_contiguous_view",
    "Einops.C77_unpack",
    "Einops.C77_pack",
    "Einops.C77_repeat_numpy_copies",
    "Einops.C77_join_image"
   ],
   "note": "The elements of a tensor are places in memory (Verif/Views.lean), the operations are the model of the other properties. Assumed about the frameworks, as documented by them: reshape returns a view if there is one and a copy otherwise, transposition, slices and expand return views, tile, concatenate, stack and reductions return new memory. Callables as reductions are not covered. C77_repeat_numpy_copies is the witness that the docstring of repeat does not hold in numpy."
  },
  {
   "property": "C78",
   "status": "proved",
   "theorems": [
    "Einops.C78_rearrange",
    "Einops.C78_repeat",
    "Einops.C78_reduce",
    "Einops.C78_max",
    "Einops.C78_one_test",
    "Einops.C78_one_test_sum",
    "Einops.C78_join_image",
    "Einops.C78_max_order"
   ],
   "note": "The two patterns have the same left side (as lists of dimensions, so spaces do not matter). Examples beside the theorems show that none of the conditions can be left out: equal elements, an axis of length 1, an ellipsis that stands for one axis, and for max elements that do not increase (C78_max_order)."
  },
  {
   "property": "C79",
   "status": "proved",
   "theorems": [
    "Einops.C79_true",
    "Einops.C79_true_one",
    "Einops.C79_side",
    "Einops.C79_side_iff",
    "Einops.C79_erase",
    "Einops.C79_message",
    "Einops.C79_syntax",
    "Einops.C79_order",
    "Einops.C79_text"
   ],
   "note": "Messages are modelled as values (Verif/Messages.lean), their text separately; forgetting the message gives the model of reduce used elsewhere (C79_erase). How a framework prints a shape or a size, and how Python prints a callable, are parameters. The message for a keyword that is not a name has two arguments in the code (einops.py:395), so its text is the text of a tuple."
  },
  {
   "property": "C80",
   "status": "proved",
   "theorems": [
    "Einops.C80_elementwise",
    "Einops.C80_moves",
    "Einops.C80_sums",
    "Einops.C80_sums_test",
    "Einops.C80_products",
    "Einops.C80_products_test",
    "Einops.C80_maxima",
    "Einops.C80_minima"
   ],
   "note": "The functions are well-founded trees of calls whose continuation is a function of the shapes of all tensors so far. For einsum the reference implementation of the framework function (refEinsum) is used in C80_products; C80_elementwise takes any implementation that commutes with the function of elements. Elements are exact (no rounding)."
  },
  {
   "property": "C81",
   "status": "partial",
   "theorems": [
    "Einops.C81_accepted_partial",
    "Einops.C81_result_partial",
    "Einops.C81_groups",
    "Einops.C81_stretching_partial",
    "Einops.C81_new_tensor",
    "Einops.C81_new_tensor_partial",
    "Einops.C81_einsums",
    "Einops.C81_unchecked",
    "Einops.C81_stretched",
    "Einops.C81_enlarged",
    "Einops.C81_compared",
    "Einops.C81_bias_one"
   ],
   "note": "False as stated: witnesses C81_unchecked (size not compared), C81_stretched (einsum stretching length 1), C81_enlarged (bias added to a new tensor), C81_bias_one. C81_accepted_partial is an equivalence: exactly the inputs for which a call succeeds, for a strict einsum and addition in place. Behaviour of frameworks for lengths that do not agree is a hypothesis (EinsumStrict, EinsumCasts), with implementations of both. Paddle's += is taken as in place."
  },
  {
   "property": "C82",
   "status": "proved",
   "theorems": [
    "Einops.C82_call",
    "Einops.C82_errors",
    "Einops.C82_cached",
    "Einops.C82_uncached",
    "Einops.C82_again",
    "Einops.C82_history",
    "Einops.C82_parse_shape",
    "Einops.C82_pack",
    "Einops.C82_einsum",
    "Einops.C82_layer",
    "Einops.C82_keyword",
    "Einops.C82_depends_on_history"
   ],
   "note": "C82_call, C82_errors; with caches C82_cached, C82_uncached, C82_again, C82_history; C82_parse_shape, C82_pack, C82_einsum, C82_layer for the other functions. Witnesses: C82_keyword (keywords are accepted as names, contrary to the documentation of check_axis_name), C82_depends_on_history (with -W error a call raises or returns depending on earlier calls)."
  },
  {
   "property": "C83",
   "status": "proved",
   "theorems": [
    "Einops.C83_erase",
    "Einops.C83_pack",
    "Einops.C83_pack_message",
    "Einops.C83_unpack",
    "Einops.C83_unpack_message",
    "Einops.C83_parse_shape",
    "Einops.C83_parse_shape_message",
    "Einops.C83_einsum",
    "Einops.C83_einsum_first",
    "Einops.C83_einsum_message",
    "Einops.C83_text",
    "Einops.C83_unpack_false"
   ],
   "note": "C83_erase ties the functions with messages to the model; C83_pack, C83_unpack, C83_parse_shape, C83_einsum say what messages claim is so, C83_pack_message, C83_unpack_message, C83_parse_shape_message, C83_einsum_message which exceptions have one, C83_einsum_first which one it is. Witness C83_unpack_false: with a dimension 0 besides the star and a length to be inferred, unpack says that it cannot split an axis that can be split."
  },
  {
   "property": "C84",
   "status": "proved",
   "theorems": [
    "Einops.C84_erase",
    "Einops.C84_reduce",
    "Einops.C84_rearrange",
    "Einops.C84_layer_message",
    "Einops.C84_einmix",
    "Einops.C84_einmix_message",
    "Einops.C84_number_in_output",
    "Einops.C84_text"
   ],
   "note": "C84_erase ties the constructors with messages to the model; C84_reduce, C84_rearrange, C84_einmix say what messages claim is so, C84_layer_message and C84_einmix_message that every EinopsError has one, C84_number_in_output what is said about numbers in the output, C84_text what the text shows. The message about the layer that takes the input of EinMix apart is shown to be only ever 'Could not infer sizes'."
  },
  {
   "property": "C85",
   "status": "proved",
   "theorems": [
    "Einops.C85_tensorflow",
    "Einops.C85_tensorflow_refused",
    "Einops.C85_tensorflow_nonneg",
    "Einops.C85_flax",
    "Einops.C85_flax_refused",
    "Einops.C85_same",
    "Einops.C85_flax_tensorflow",
    "Einops.C85_flax_names",
    "Einops.C85_late",
    "Einops.C85_other_exception",
    "Einops.C85_other_exception_tensorflow",
    "Einops.C85_flax_names_differ"
   ],
   "note": "C85_same, C85_tensorflow, C85_tensorflow_refused, C85_tensorflow_nonneg, C85_flax, C85_flax_refused, C85_flax_tensorflow, C85_flax_names; witnesses for every exception to agreement: C85_late, C85_other_exception, C85_other_exception_tensorflow, C85_flax_names_differ. Tensorflow and flax add the bias to a new tensor, which can succeed where in place addition fails (C81)."
  },
  {
   "property": "C86",
   "status": "proved",
   "theorems": [
    "Einops.C86_bits",
    "Einops.C86_bits_arange",
    "Einops.C86_stress",
    "Einops.C86_stress_none",
    "Einops.C86_dots",
    "Einops.C86_lists",
    "Einops.C86_same_sides",
    "Einops.C86_names_identity",
    "Einops.C86_identity",
    "Einops.C86_equivalent_rearrange",
    "Einops.C86_equivalent_reduction"
   ],
   "note": "C86_bits, C86_bits_arange, C86_stress, C86_stress_none, C86_dots, C86_lists, C86_same_sides, C86_names_identity, C86_identity, C86_equivalent_rearrange, C86_equivalent_reduction. The place in C order and the bits are Nat.testBit; IsTranspose and readWords are in TransposeSpec."
  },
  {
   "property": "C87",
   "status": "proved",
   "theorems": [
    "Einops.C87_input",
    "Einops.C87_weight_formula",
    "Einops.C87_weight",
    "Einops.C87_bias"
   ],
   "note": "C87_input, C87_weight_formula, C87_weight, C87_bias. Arithmetic is exact; that frameworks differentiate correctly is not claimed, only what the gradients are."
  },
  {
   "property": "C88",
   "status": "proved",
   "theorems": [
    "Einops.C88_shape_name",
    "Einops.C88_shape_refused",
    "Einops.C88_einsum",
    "Einops.C88_einsum_glued",
    "Einops.C88_pack",
    "Einops.C88_unpack",
    "Einops.C88_einmix",
    "Einops.C88_einmix_refused",
    "Einops.C88_einmix_sizeless"
   ],
   "note": "C88_shape_name, C88_shape_refused, C88_einsum, C88_einsum_glued, C88_pack, C88_unpack, C88_einmix, C88_einmix_refused, C88_einmix_sizeless. The examples also show what is not covered by an equality: two '…' in one input of einsum and a '…' on the left only in EinMix are handed to the framework, where the same with '...' is refused; a '…' on the right of EinMix with composed output axes follows C64 and is not stated again."
  },
  {
   "property": "C89",
   "status": "proved",
   "theorems": [
    "Einops.C89_constructor",
    "Einops.C89_plain_names",
    "Einops.C89_bias_type"
   ],
   "note": "C89_constructor, C89_plain_names, C89_bias_type. The recipes are taken not to be in the cache (C82 says what a cached recipe changes)."
  },
  {
   "property": "C90",
   "status": "proved",
   "theorems": [
    "Einops.C90_einsum",
    "Einops.C90_dots",
    "Einops.C90_flat_rank_one",
    "Einops.C90_flat_wrong",
    "Einops.C90_flat_empty",
    "Einops.C90_dots_vector"
   ],
   "note": "C90_einsum, C90_dots, C90_flat_rank_one; C90_flat_wrong, C90_flat_empty and C90_dots_vector are the witnesses that the second way is wrong for higher ranks, refuses empty axes, and that the third refuses vectors. numpy.einsum is any function with the property EinsumLawful (C27)."
  },
  {
   "property": "C91",
   "status": "proved",
   "theorems": [
    "Einops.C91_new",
    "Einops.C91_old",
    "Einops.C91_old_not_square",
    "Einops.C91_one_pixel",
    "Einops.C91_more_pixels"
   ],
   "note": "C91_new, C91_old, C91_old_not_square, C91_one_pixel (the assertion of the test), C91_more_pixels (its negation for larger pictures, every input). Arithmetic is exact; sigmoid and exp are any functions; filling slices of a new tensor is modelled as stacking or joining the parts."
  },
  {
   "property": "C92",
   "status": "proved",
   "theorems": [
    "Einops.C92_one_dim",
    "Einops.C92_two_dim",
    "Einops.C92_shufflenet",
    "Einops.C92_unet",
    "Einops.C92_dilated",
    "Einops.C92_dilated_2d",
    "Einops.C92_mock"
   ],
   "note": "C92_one_dim, C92_two_dim, C92_shufflenet, C92_unet, C92_dilated, C92_dilated_2d, C92_mock. conv1d and conv2d are exact and refuse empty axes other than the batch; the operation on items is any function with the property ActsOnItems."
  },
  {
   "property": "C93",
   "status": "proved",
   "theorems": [
    "Einops.C93_pixels",
    "Einops.C93_even",
    "Einops.C93_groups"
   ],
   "note": "C93_pixels, C93_even, C93_groups. Arithmetic is exact."
  },
  {
   "property": "C94",
   "status": "proved",
   "theorems": [
    "Einops.C94_list",
    "Einops.C94_no_items",
    "Einops.C94_stack",
    "Einops.C94_concat"
   ],
   "note": "C94_list, C94_no_items, C94_stack, C94_concat. Cutting is the indexing x[k] of the framework, modelled by Tensor.select."
  },
  {
   "property": "C95",
   "status": "proved",
   "theorems": [
    "Einops.C95_max_pool",
    "Einops.C95_global_max"
   ],
   "note": "C95_max_pool, C95_global_max. Largest is the small specification of ApartSpec; that integers satisfy the hypotheses is shown beside."
  }
 ]
}