{
 "claims": [
  {
   "property": "C01",
   "status": "partial",
   "theorems": [
    "GCV.GC.C01_round_trip_partial",
    "GCV.GC.C01_round_trip_same_memory_partial",
    "GCV.GC.C01_round_trip_negation"
   ],
   "note": "round trip proved for every well-formed tree without pointers, MAT_COMPLEX, and with NUL-free strings and sizes below the 31 bit limits; false for MAT_COMPLEX, POINTER, VEC_POINTER and strings with NUL bytes (negation)"
  },
  {
   "property": "C02",
   "status": "partial",
   "theorems": [
    "GCV.GC.C02_mem_size_exact_partial",
    "GCV.GC.C02_mem_size_value",
    "GCV.GC.C02_mem_size_negation",
    "GCV.GC.C02_mem_size_overflow"
   ],
   "note": "exact size proved under the same storability conditions; false beyond (negation) and when sizes overflow"
  },
  {
   "property": "C03",
   "status": "partial",
   "theorems": [
    "GCV.GC.C03_no_overrun_partial",
    "GCV.GC.C03_rest_untouched_partial"
   ],
   "note": "no byte outside of the given buffer is written, for every tree without the falling-through MAT_COMPLEX case"
  },
  {
   "property": "C04",
   "status": "proved",
   "theorems": [
    "GCV.GC.C04_prefix_free"
   ],
   "note": "Proved for all pairs of containers whose binary form is shorter than 2 GiB, pointers, NUL in strings included."
  },
  {
   "property": "C05",
   "status": "partial",
   "theorems": [
    "GCV.GC.C05_extension_safe_partial",
    "GCV.GC.C05_truncated_negation",
    "GCV.GC.C05_short_vector_negation",
    "GCV.GC.C05_diverge_negation",
    "GCV.GC.C05_result",
    "GCV.GC.C05_every_truncation_negation",
    "GCV.GC.C05_announced",
    "GCV.GC.C05_short",
    "GCV.GC.C05_vec_bool_count"
   ],
   "note": "Partial: what is returned is well formed and consumes no more than announced; on truncated input reads are out of bounds (every truncation of every binary form), so the full statement is refuted."
  },
  {
   "property": "C06",
   "status": "partial",
   "theorems": [
    "GCV.GC.C06_copy_faithful_partial",
    "GCV.GC.C06_to_gc_faithful_partial",
    "GCV.GC.C06_copy_negation"
   ],
   "note": "false for keys with NUL bytes; proved for all other trees"
  },
  {
   "property": "C07",
   "status": "partial",
   "theorems": [
    "GCV.GC.C07_assign_succeeds",
    "GCV.GC.C07_assign_iff_partial",
    "GCV.GC.C07_assign_other_type_partial",
    "GCV.GC.C07_assign_negation"
   ],
   "note": "false when old map keys or old vector elements survive; exact characterisation proved"
  },
  {
   "property": "C08",
   "status": "partial",
   "theorems": [
    "GCV.GC.C08_set_get_partial",
    "GCV.GC.C08_set_get_negation",
    "GCV.GC.C08_assign_unsigned_partial"
   ],
   "note": "false for empty vectors over a non-empty vector of the same type; proved for all other values and all previous contents"
  },
  {
   "property": "C09",
   "status": "proved",
   "theorems": [
    "GCV.GC.C09_ck",
    "GCV.GC.C09_typed_access",
    "GCV.GC.C09_holds_unique"
   ],
   "note": "for every accessor type and every container"
  },
  {
   "property": "C10",
   "status": "partial",
   "theorems": [
    "GCV.GC.C10_as_int_partial",
    "GCV.GC.C10_as_long_partial",
    "GCV.GC.C10_as_uint_partial",
    "GCV.GC.C10_as_ulong_partial",
    "GCV.GC.C10_negation"
   ],
   "note": "false for out-of-range integers and subnormal reals (negation); proved exact-or-throw for all other contents"
  },
  {
   "property": "C11",
   "status": "proved",
   "theorems": [
    "GCV.GC.C11_number_exact",
    "GCV.GC.C11_number_same",
    "GCV.GC.C11_long_near",
    "GCV.GC.C11_not_number",
    "GCV.GC.C11_number_at",
    "GCV.GC.C11_nearest"
   ],
   "note": "exact for bool, int, real and |long| <= 2^53, relative error 2^-53 otherwise"
  },
  {
   "property": "C12",
   "status": "partial",
   "theorems": [
    "GCV.Mat.C12_cells_partial",
    "GCV.Mat.C12_columns_rows_partial",
    "GCV.Mat.C12_wrap_negation"
   ],
   "note": "cells, rows and columns proved for matrices with fewer than 2^32 cells; false when rows*cols wraps (negation)"
  },
  {
   "property": "C13",
   "status": "partial",
   "theorems": [
    "GCV.GC.C13_mutable_partial",
    "GCV.GC.C13_mutable_throws_partial",
    "GCV.GC.C13_mutable_negation",
    "GCV.GC.C13_checked_partial",
    "GCV.GC.C13_no_overrun",
    "GCV.GC.C13_negation",
    "GCV.GC.C13_unchecked_partial"
   ],
   "note": "checked access only checks the linear index, so a column-overrunning row index aliases (negation); no access leaves the buffer"
  },
  {
   "property": "C14",
   "status": "partial",
   "theorems": [
    "GCV.GC.C14_push_partial",
    "GCV.GC.C14_push_history",
    "GCV.GC.C14_push_history_packed",
    "GCV.GC.C14_push_empty_negation",
    "GCV.GC.C14_push_string_negation"
   ],
   "note": "a push on a container holding anything appends exactly the argument and keeps what was there, over every history of pushes; false for pushes on an empty container with some element types and for strings (negations)"
  },
  {
   "property": "C15",
   "status": "partial",
   "theorems": [
    "GCV.GC.C15_promote_partial",
    "GCV.GC.C15_promote_empty",
    "GCV.GC.C15_promote_negation",
    "GCV.GC.C15_refused_negation",
    "GCV.GC.C15_long_negation",
    "GCV.GC.C15_promote_vector_partial",
    "GCV.GC.C15_promote_vector_refused",
    "GCV.GC.C15_promote_vector_negation"
   ],
   "note": "promotions keep every element, its position and the matrix sizes, or throw without change, for sources and targets listed in promotable; false for the listed bad promotions, for some refused calls that change the container and for longs beyond 2^53 (negations)"
  },
  {
   "property": "C16",
   "status": "partial",
   "theorems": [
    "GCV.GC.C16_vec_int_partial",
    "GCV.GC.C16_vec_long_partial",
    "GCV.GC.C16_vec_uint_partial",
    "GCV.GC.C16_vec_ulong_partial",
    "GCV.GC.C16_vec_real_partial",
    "GCV.GC.C16_vec_complex_partial",
    "GCV.GC.C16_vec_string",
    "GCV.GC.C16_map",
    "GCV.GC.C16_negation",
    "GCV.GC.C16_uint_refused",
    "GCV.GC.C16_mat_int_partial",
    "GCV.GC.C16_mat_long_partial",
    "GCV.GC.C16_mat_real_partial",
    "GCV.GC.C16_mat_complex_partial",
    "GCV.GC.C16_mat_empty_negation",
    "GCV.GC.C16_mat_complex_negation"
   ],
   "note": "copyto_vec_* and copyto_mat_* copy every number at its position or throw; conditions: no subnormals, integers in range, longs within 2^53 for reals, non empty sources for matrices; false outside of them (negations)"
  },
  {
   "property": "C17",
   "status": "partial",
   "theorems": [
    "GCV.GC.C17_data_partial",
    "GCV.GC.C17_packs_numbers_partial",
    "GCV.GC.C17_packs_matrix_partial",
    "GCV.GC.C17_negation",
    "GCV.GC.C17_mixed_negation",
    "GCV.GC.C17_long_negation"
   ],
   "note": "collapse returns and preserves the data (view as lists and dictionaries) for trees whose vectors satisfy VectorOk and with longs within 2^53 or no reals; packing of numbers and of equal-length lists proved; false for complex beside other numbers, pointers beside numbers, scalars beside one-element lists, longs beyond 2^53 (negations)"
  },
  {
   "property": "C18",
   "status": "proved",
   "theorems": [
    "GCV.GC.C18_idempotent"
   ],
   "note": "proved for every tree on which the first collapse returns"
  },
  {
   "property": "C19",
   "status": "partial",
   "theorems": [
    "GCV.GC.C19_checked_key",
    "GCV.GC.C19_access_key",
    "GCV.GC.C19_erase",
    "GCV.GC.C19_exists",
    "GCV.GC.C19_history",
    "GCV.GC.C19_nul_negation",
    "GCV.GC.C19_access_other_type"
   ],
   "note": "get/set, erase and exists laws and histories of map operations for NUL-free keys; false for keys with NUL (negation)"
  },
  {
   "property": "C20",
   "status": "partial",
   "theorems": [
    "GCV.GC.C20_agrees",
    "GCV.GC.C20_int_partial",
    "GCV.GC.C20_never_throws",
    "GCV.GC.C20_list",
    "GCV.GC.C20_bool_list_negation",
    "GCV.GC.C20_bool_list_partial"
   ],
   "note": "agrees with the typed read for every kind; false for the bool list overload (inverted test), narrowing ints partial"
  },
  {
   "property": "C21",
   "status": "partial",
   "theorems": [
    "GCV.GC.C21_get_map_bool",
    "GCV.GC.C21_must_exists",
    "GCV.GC.C21_call_keys",
    "GCV.GC.C21_with_keys",
    "GCV.GC.C21_get_map_keys",
    "GCV.GC.C21_exists_any_partial",
    "GCV.GC.C21_exists_any_negation",
    "GCV.GC.C21_get_map_key",
    "GCV.GC.C21_get_map_path"
   ],
   "note": "first present key wins, for every list of keys; exists(list) agrees with must_exists for NUL-free keys and disagrees with NULs (negation)"
  },
  {
   "property": "C22",
   "status": "partial",
   "theorems": [
    "GCV.GC.C22_merge_empty",
    "GCV.GC.C22_merge_not_map",
    "GCV.GC.C22_merge_into_other",
    "GCV.GC.C22_merge_map_partial",
    "GCV.GC.C22_merge_negation"
   ],
   "note": "shared keys are assigned, not replaced"
  },
  {
   "property": "C23",
   "status": "partial",
   "theorems": [
    "GCV.GC.C23_answer_partial",
    "GCV.GC.C23_decides_partial",
    "GCV.GC.C23_vector_negation",
    "GCV.GC.C23_real_negation",
    "GCV.GC.C23_equal_negation"
   ],
   "note": "every answer is right, and there is one for trees without reals and non empty packed vectors; false otherwise: two reals are undefined behaviour, equal packed vectors never end (negations, general over all equal containers)"
  },
  {
   "property": "C24",
   "status": "partial",
   "theorems": [
    "GCV.GC.C24_counts_partial"
   ],
   "note": "proved when counts fit 32 bits, which is what the return type holds"
  },
  {
   "property": "C25",
   "status": "proved",
   "theorems": [
    "GCV.GC.C25_wellformed"
   ],
   "note": "All histories of the modelled calls, throwing or returning, and de_serialize of any bytes. A matrix reference obtained from get_mat_* is assumed to be used only with matrix functions (argsOk). Undefined behaviour leaves no state to speak of."
  },
  {
   "property": "C26",
   "status": "partial",
   "theorems": [
    "GCV.GC.C26_unchanged_partial",
    "GCV.GC.C26_negation"
   ],
   "note": "Proved for every modelled call except those listed at Op.quiet; C26_negation shows with concrete calls that the listed ones do change the container before throwing (get_*_at(i,j) on an empty container or vector, get_mat_long on VEC_BOOL, calls through c[key]/c[i], collapse). Allocation failure: C115, C116."
  },
  {
   "property": "C27",
   "status": "partial",
   "theorems": [
    "GCV.GC.C27_at_partial",
    "GCV.GC.C27_at_empty",
    "GCV.GC.C27_at_widening",
    "GCV.GC.C27_write_read",
    "GCV.GC.C27_read_partial",
    "GCV.GC.C27_vector_negation",
    "GCV.GC.C27_wrap_negation"
   ],
   "note": "positional write access grows to exactly i+1 elements, keeps earlier ones and reads back what was written; false for vectors of containers (the read overwrites) and for index 2^32-1 (negations)"
  },
  {
   "property": "C28",
   "status": "partial",
   "theorems": [
    "GCV.GC.C28_checked_index",
    "GCV.GC.C28_const_at",
    "GCV.GC.C28_const_at_throws",
    "GCV.GC.C28_number_at_negation"
   ],
   "note": "const positional reads throw outside of the range; get_number_at and get_complex_number_at do not check (negation)"
  },
  {
   "property": "C29",
   "status": "partial",
   "theorems": [
    "GCV.GC.C29_roundtrip_partial",
    "GCV.GC.C29_injective",
    "GCV.GC.C29_control_negation",
    "GCV.GC.C29_utf8_negation"
   ],
   "note": "round trip proved for every UTF-8 string without BEL and VT, escaping injective for every byte string; false for BEL, VT (read back as two characters) and for bytes that are not UTF-8 (text silently taken as an empty document) (negations)"
  },
  {
   "property": "C30",
   "status": "partial",
   "theorems": [
    "GCV.GC.C30_tree_partial",
    "GCV.GC.C30_shape",
    "GCV.GC.C30_accepted",
    "GCV.GC.C30_returns",
    "GCV.GC.C30_nested_negation",
    "GCV.GC.C30_nested_witness_negation",
    "GCV.GC.C30_repeated_key_negation",
    "GCV.GC.C30_not_cleared_negation",
    "GCV.GC.C30_number_negation",
    "GCV.GC.C30_garbage_negation"
   ],
   "note": "tree proved for every document, of any nesting and size, without arrays directly in arrays, repeated keys and integers over 64 bits; accepted texts are exactly documents up to what follows them; negations for nested arrays, repeated keys, non empty targets, lone integers and garbage behind the document"
  },
  {
   "property": "C31",
   "status": "proved",
   "theorems": [
    "GCV.GC.C31_exact",
    "GCV.GC.C31_exact_element",
    "GCV.GC.C31_exact_member",
    "GCV.GC.C31_saturates"
   ],
   "note": "Proved: alone in an array, anywhere in an array, as member of an object; saturation beyond 64 bits."
  },
  {
   "property": "C32",
   "status": "partial",
   "theorems": [
    "GCV.GC.C32_lexer_partial",
    "GCV.GC.C32_parser_partial",
    "GCV.GC.C32_trailing_blank_negation",
    "GCV.GC.C32_newline_negation"
   ],
   "note": "lexer and table driven parser return on every text and consume input; undefined behaviour exactly when only blanks are left, in particular for every document followed by a newline (negation)"
  },
  {
   "property": "C33",
   "status": "partial",
   "theorems": [
    "GCV.CApi.C33_cursor_partial",
    "GCV.CApi.C33_navigation_partial",
    "GCV.CApi.C33_write",
    "GCV.CApi.C33_read",
    "GCV.CApi.C33_array",
    "GCV.CApi.C33_empty_array_negation",
    "GCV.CApi.C33_push_map",
    "GCV.CApi.C33_push_vector",
    "GCV.CApi.C33_minus_one_negation",
    "GCV.CApi.C33_stuck_negation",
    "GCV.CApi.C33_exception_negation",
    "GCV.CApi.C33_keys",
    "GCV.CApi.C33_next_key_negation",
    "GCV.CApi.C33_keys_lost",
    "GCV.CApi.C33_fill_negation"
   ],
   "note": "for every sequence of C calls without GC_fill_for_test the stack is a chain of existing elements from the root, navigation returns documented codes and failing navigation keeps the cursor, push/pop, reads, writes and key walks act on the selected element; false for position -1 (undefined), GC_pop_head of the root (stuck for ever), queries on an empty stack (C++ exception), GC_get_next_key without a live iterator and GC_fill_for_test (undefined) (negations) How each call ends, exactly: C119."
  },
  {
   "property": "C34",
   "status": "partial",
   "theorems": [
    "GCV.CApi.C34_isolated",
    "GCV.CApi.C34_select",
    "GCV.CApi.C34_delete",
    "GCV.CApi.C34_unreachable",
    "GCV.CApi.C34_deleted_negation"
   ],
   "note": "isolation over all call sequences, select, delete, and that nothing reaches a deleted container that is not selected; a deleted container that is selected stays selected and goes on being changed (negation)"
  },
  {
   "property": "C35",
   "status": "partial",
   "theorems": [
    "GCV.C35_tokens_partial",
    "GCV.C35_no_delimiter",
    "GCV.C35_join_partial",
    "GCV.C35_negation"
   ],
   "note": "proved for texts in which a carriage return or newline is a delimiter or absent; otherwise a last token starting with one is dropped (negation)"
  },
  {
   "property": "C36",
   "status": "partial",
   "theorems": [
    "GCV.GC.C36_table_partial",
    "GCV.GC.C36_shape_partial",
    "GCV.GC.C36_last_line_negation",
    "GCV.GC.C36_last_line_example_negation",
    "GCV.GC.C36_twice_negation"
   ],
   "note": "proved for texts of complete lines and a container without a table; an unterminated last line counts twice and a second read appends (negations, the first for every such text)"
  },
  {
   "property": "C37",
   "status": "partial",
   "theorems": [
    "GCV.GC.C37_push_partial",
    "GCV.GC.C37_count",
    "GCV.GC.C37_vec_bool_negation",
    "GCV.GC.C37_vec_bool_in_map_negation",
    "GCV.GC.C37_vec_bool_in_vector_negation",
    "GCV.GC.C37_dropped_negation"
   ],
   "note": "One value iff the tree has no VEC_BOOL: the exact number of values pushed is proved for every tree (C37_count). Refuted for VEC_BOOL at top level, in a map, in a vector; complex numbers, matrices, pointers are pushed as nil."
  },
  {
   "property": "C38",
   "status": "proved",
   "theorems": [
    "GCV.GC.C38_names_distinct",
    "GCV.GC.C38_names_nonempty",
    "GCV.GC.C38_tags_distinct",
    "GCV.GC.C38_tags_recognised"
   ],
   "note": "for the whole enumeration"
  },
  {
   "property": "C39",
   "status": "proved",
   "theorems": [
    "GCV.GC.C39_clear"
   ],
   "note": "for every container"
  },
  {
   "property": "C40",
   "status": "partial",
   "theorems": [
    "GCV.Heap.C40_history_partial",
    "GCV.Heap.C40_no_leak_partial",
    "GCV.Heap.C40_self_assign_partial",
    "GCV.Heap.C40_self_assign_negation",
    "GCV.Heap.C40_assign_from_inside_negation",
    "GCV.Heap.C40_assign_into_itself_negation"
   ],
   "note": "Proved for every program of construct/copy/destroy/clear/set/index/key/erase/assign over any number of variables and any depth, on a memory where addresses are never reused and a released block may not be read; assignments between places of which neither is inside the other, and x = x without a COMPLEX. Refuted: x = x with a COMPLEX inside, x = y with y inside x (released then read), y = x with y inside x (never ends, for every x and y). The assignments between a container and a part of it, for every container and part: C122."
  },
  {
   "property": "C41",
   "status": "partial",
   "theorems": [
    "GCV.GC.C41_layout",
    "GCV.GC.C41_layout_matrix",
    "GCV.GC.C41_returns",
    "GCV.GC.C41_negation",
    "GCV.GC.C41_formatted",
    "GCV.GC.C41_formatted_matrix_negation"
   ],
   "note": "layout proved whenever the call returns, and it returns for columns of equal length; without headers or data it reads outside the vector, and the formatted matrix version writes more headers than columns (negations). Number formatting is an argument."
  },
  {
   "property": "C42",
   "status": "partial",
   "theorems": [
    "GCV.GC.C42_yaml_scalar",
    "GCV.GC.C42_toml_scalar",
    "GCV.GC.C42_yaml_array",
    "GCV.GC.C42_toml_array_partial",
    "GCV.GC.C42_toml_array_negation",
    "GCV.GC.C42_toml_array_exact"
   ],
   "note": "Scalars and YAML sequences: proved for every value, length and previous content. TOML arrays: proved when all numbers fit 32 bits, and refuted for every array with a number that does not (stored as int, value lost)."
  },
  {
   "property": "C43",
   "status": "partial",
   "theorems": [
    "GCV.GC.C43_const_key_partial",
    "GCV.GC.C43_const_key_throws",
    "GCV.GC.C43_const_key_negation"
   ],
   "note": "const operator[] with an absent key inserts it (negation); for present keys and other types: read or throw, unchanged"
  },
  {
   "property": "C44",
   "status": "proved",
   "theorems": [
    "GCV.GC.C44_roundtrip"
   ],
   "note": "write_table of real columns then read_formatted_data; atof and the written form of a number are arguments of the model"
  },
  {
   "property": "C45",
   "status": "proved",
   "theorems": [
    "GCV.GC.C45_scalar_reference"
   ],
   "note": "proved for the six scalar getters and every content; the value found by get_bool/get_int/get_long/get_real in an empty container is whatever bytes were there (argument of the model)"
  },
  {
   "property": "C46",
   "status": "proved",
   "theorems": [
    "GCV.GC.C46_free_pointer"
   ],
   "note": "proved for every content"
  },
  {
   "property": "C47",
   "status": "proved",
   "theorems": [
    "GCV.GC.C47_keys_text"
   ],
   "note": "proved for maps of any size"
  },
  {
   "property": "C48",
   "status": "partial",
   "theorems": [
    "GCV.GC.C48_number_partial",
    "GCV.GC.C48_range_negation",
    "GCV.GC.C48_integer_negation",
    "GCV.GC.C48_scalar",
    "GCV.GC.C48_array",
    "GCV.GC.C48_index_negation",
    "GCV.GC.C48_mixed_negation",
    "GCV.GC.C48_value_partial",
    "GCV.GC.C48_nul_negation"
   ],
   "note": "Partial: proved for every value made of booleans, strings without NUL, floats in the range of long, integers that are doubles, arrays of numbers, booleans, strings or tables, arrays that mix numbers and strings, and tables with string keys, nested at will, in every order of delivery. Refuted: floats out of range, NaN and infinity (undefined), integers above 2^53 (rounded; the largest undefined), index 0 or a fractional index (undefined), lists that mix other kinds (exception, lost entries; C117 says exactly what such a list becomes), tables with both integer and string keys (lost entries), NUL bytes (cut)."
  },
  {
   "property": "C49",
   "status": "partial",
   "theorems": [
    "GCV.GC.C49_yaml_partial",
    "GCV.GC.C49_toml_partial",
    "GCV.GC.C49_scalar",
    "GCV.GC.C49_stale_negation",
    "GCV.GC.C49_stale_key_negation",
    "GCV.GC.C49_refused_negation",
    "GCV.GC.C49_mixed_negation",
    "GCV.GC.C49_mixed_list_negation"
   ],
   "note": "Proved for documents with distinct string keys whose sequences are all sequences or have none, whole numbers within 2^53 (or no reals), TOML integer arrays within 32 bits. Refuted: destination not empty (old entries stay), documents that collapse() refuses (answer false), a scalar beside a list of one number. The parsers of fkYAML and toml++ are not modelled."
  },
  {
   "property": "C50",
   "status": "partial",
   "theorems": [
    "GCV.GC.C50_round_trip_partial",
    "GCV.GC.C50_empty_negation",
    "GCV.GC.C50_long_negation",
    "GCV.GC.C50_complex_negation"
   ],
   "note": "Proved for maps of booleans, numbers, strings, their vectors, vectors and maps, under the conditions of C49; exactly what comes back otherwise is C108. Refuted: exactly the trees with an empty container inside make to_toml undefined; longs beyond 32 bits in a vector; complex numbers; matrices."
  },
  {
   "property": "C51",
   "status": "proved",
   "theorems": [
    "GCV.GC.C51_vector_reference",
    "GCV.GC.C51_write_through"
   ],
   "note": "Proved for every container, type and update."
  },
  {
   "property": "C52",
   "status": "partial",
   "theorems": [
    "GCV.GC.C52_matrix_reference_partial",
    "GCV.GC.C52_write_through",
    "GCV.GC.C52_matrix_reference_negation"
   ],
   "note": "Proved for every container and update; refuted where the code accepts or refuses contrary to the widening rule."
  },
  {
   "property": "C53",
   "status": "proved",
   "theorems": [
    "GCV.GC.C53_print",
    "GCV.GC.C53_returns",
    "GCV.GC.C53_complex",
    "GCV.GC.C53_cells"
   ],
   "note": "Proved."
  },
  {
   "property": "C54",
   "status": "partial",
   "theorems": [
    "GCV.GC.C54_document_partial",
    "GCV.GC.C54_returns",
    "GCV.GC.C54_round_trip_partial",
    "GCV.GC.C54_number_negation",
    "GCV.GC.C54_empty_negation",
    "GCV.GC.C54_key_negation",
    "GCV.GC.C54_matrix_negation",
    "GCV.GC.C54_complex_negation",
    "GCV.GC.C54_pointer_negation"
   ],
   "note": "Proved: returns for all containers with full matrices. Text is JSON and describes the container, and is read back as the same data: for containers without pointers, complex matrices and empty vectors or maps, with keys that need no escaping. Refuted: a single number, empty vectors and maps, keys with quotes, matrices (nested arrays), complex numbers (read as strings), integers after a pointer (base 16). The decimal form of doubles is a parameter."
  },
  {
   "property": "C55",
   "status": "proved",
   "theorems": [
    "GCV.GC.C55_survives_iff",
    "GCV.GC.C55_comes_back",
    "GCV.GC.C55_comes_back_entry",
    "GCV.GC.C55_survives_vec_iff"
   ],
   "note": "Proved, both for the pointer and the vector interface."
  },
  {
   "property": "C56",
   "status": "proved",
   "theorems": [
    "GCV.GC.C56_assign",
    "GCV.GC.C56_to_gc",
    "GCV.GC.C56_merge"
   ],
   "note": "Proved; result uniquely determined by the overlay specification. Aliasing (source inside destination) is treated under C40."
  },
  {
   "property": "C57",
   "status": "proved",
   "theorems": [
    "GCV.GC.C57_copy_iff",
    "GCV.GC.C57_copy_plain"
   ],
   "note": "Proved."
  },
  {
   "property": "C58",
   "status": "proved",
   "theorems": [
    "GCV.GC.C58_set",
    "GCV.GC.C58_read_back_iff",
    "GCV.GC.C58_assign_unsigned"
   ],
   "note": "Proved."
  },
  {
   "property": "C59",
   "status": "proved",
   "theorems": [
    "GCV.GC.C59_signed",
    "GCV.GC.C59_unsigned"
   ],
   "note": "Proved."
  },
  {
   "property": "C60",
   "status": "proved",
   "theorems": [
    "GCV.GC.C60_cell",
    "GCV.GC.C60_in_range",
    "GCV.GC.C60_out_of_range"
   ],
   "note": "Proved."
  },
  {
   "property": "C61",
   "status": "proved",
   "theorems": [
    "GCV.C61_tokens",
    "GCV.C61_all_iff"
   ],
   "note": "Proved."
  },
  {
   "property": "C62",
   "status": "proved",
   "theorems": [
    "GCV.GC.C62_serialize"
   ],
   "note": "Proved."
  },
  {
   "property": "C63",
   "status": "proved",
   "theorems": [
    "GCV.GC.C63_heading_iff",
    "GCV.GC.C63_heading"
   ],
   "note": "Proved."
  },
  {
   "property": "C64",
   "status": "proved",
   "theorems": [
    "GCV.GC.C64_types",
    "GCV.GC.C64_no_values",
    "GCV.GC.C64_not_injective"
   ],
   "note": "Proved."
  },
  {
   "property": "C65",
   "status": "proved",
   "theorems": [
    "GCV.GC.C65_base"
   ],
   "note": "Proved."
  },
  {
   "property": "C66",
   "status": "proved",
   "theorems": [
    "GCV.GC.C66_info",
    "GCV.GC.C66_titles",
    "GCV.GC.C66_matrices_alike"
   ],
   "note": "Proved."
  },
  {
   "property": "C67",
   "status": "partial",
   "theorems": [
    "GCV.GC.C67_indent_negation",
    "GCV.GC.C67_prefix_negation",
    "GCV.GC.C67_prefix_partial"
   ],
   "note": "Partial: the prefix is there for containers without pointers, matrices, and line breaks inside strings and keys. Refuted for the rows of a matrix, which do not get the prefix, and for the indent, which is replaced by four blanks below the first level."
  },
  {
   "property": "C68",
   "status": "partial",
   "theorems": [
    "GCV.GC.C68_same_text_negation",
    "GCV.GC.C68_same_text_partial"
   ],
   "note": "Partial: proved without pointers. Refuted with a pointer inside: the stream is left in base 16."
  },
  {
   "property": "C69",
   "status": "partial",
   "theorems": [
    "GCV.GC.C69_document_partial",
    "GCV.GC.C69_nested_partial",
    "GCV.GC.C69_unambiguous",
    "GCV.GC.C69_faithful_partial",
    "GCV.GC.C69_round_trip_partial",
    "GCV.GC.C69_returns",
    "GCV.GC.C69_empty_negation",
    "GCV.GC.C69_key_negation",
    "GCV.GC.C69_complex_negation",
    "GCV.GC.C69_pointer_negation"
   ],
   "note": "Proved: returns for all containers with full matrices; a text of the grammar stands for one document only. The text is YAML and describes the container, and is read back as the same data given a parser that delivers the nodes of such texts: for containers without pointers, vectors and matrices of complex numbers and empty vectors or maps, with keys that are plain words. Refuted: packed vectors without elements, empty vectors and maps, keys with special characters, complex numbers, integers after a pointer (base 16). The decimal form of doubles is a parameter."
  },
  {
   "property": "C70",
   "status": "proved",
   "theorems": [
    "GCV.GC.C70_rejects",
    "GCV.GC.C70_nul",
    "GCV.GC.C70_layout",
    "GCV.GC.C70_returns"
   ],
   "note": "The conversion of literals with fraction, exponent or more than 64 bits to double is a parameter."
  },
  {
   "property": "C71",
   "status": "partial",
   "theorems": [
    "GCV.GC.C71_stores",
    "GCV.GC.C71_over",
    "GCV.GC.C71_data_partial",
    "GCV.GC.C71_negation",
    "GCV.GC.C71_throw_negation",
    "GCV.GC.C71_ub_negation"
   ],
   "note": "C71_stores is exact. The data theorem needs Kept; refuted outside: strings with NUL, a non-empty container, a repeated key, a number beside a list of one; a text can make the call throw or convert out of range (undefined behaviour)."
  },
  {
   "property": "C72",
   "status": "partial",
   "theorems": [
    "GCV.GC.C72_integers",
    "GCV.GC.C72_value_partial",
    "GCV.GC.C72_negation"
   ],
   "note": "Refuted: integers from 2^31 to 2^32-1 and from 2^63 to 2^64-1 are stored as negative numbers."
  },
  {
   "property": "C73",
   "status": "partial",
   "theorems": [
    "GCV.GC.C73_document_partial",
    "GCV.GC.C73_round_trip_partial",
    "GCV.GC.C73_strings",
    "GCV.GC.C73_empty_negation",
    "GCV.GC.C73_key_negation",
    "GCV.GC.C73_long",
    "GCV.GC.C73_long_negation"
   ],
   "note": "The round trip needs RfcOk and RfcBack; C73_strings and C73_long are exact. Refuted outside: empty vectors and maps, keys with quotes or control characters, longs from 2^31 to 2^32-1."
  },
  {
   "property": "C74",
   "status": "proved",
   "theorems": [
    "GCV.GC.C74_table",
    "GCV.GC.C74_columns",
    "GCV.GC.C74_last_line",
    "GCV.GC.C74_comment_header",
    "GCV.GC.C74_twice"
   ],
   "note": "Proved."
  },
  {
   "property": "C75",
   "status": "proved",
   "theorems": [
    "GCV.GC.C75_parameters"
   ],
   "note": "The parameter container is assumed to be different from the container that is filled. A text with a carriage return before the newline keeps it in a string value."
  },
  {
   "property": "C76",
   "status": "partial",
   "theorems": [
    "GCV.GC.C76_from_matlab",
    "GCV.GC.C76_integers",
    "GCV.GC.C76_dims_negation",
    "GCV.GC.C76_sparse_negation",
    "GCV.GC.C76_negation"
   ],
   "note": "False in this generality: uint32 from 2^31 and uint64 from 2^63 become negative, arrays of three dimensions are lost, logical arrays lose their dimensions, sparse logical matrices are undefined behaviour, and strings (class string) are cut at two bytes per character."
  },
  {
   "property": "C77",
   "status": "proved",
   "theorems": [
    "GCV.GC.C77_to_matlab",
    "GCV.GC.C77_empty_map",
    "GCV.GC.C77_overloads"
   ],
   "note": "An empty map anywhere in the container is undefined behaviour (the address of the first element of an empty vector of field names)."
  },
  {
   "property": "C78",
   "status": "proved",
   "theorems": [
    "GCV.GC.C78_round_trip",
    "GCV.GC.C78_same",
    "GCV.GC.C78_settles",
    "GCV.GC.C78_numbers",
    "GCV.GC.C78_changes"
   ],
   "note": "One trip is not enough: a matrix of one row of ints comes back as a vector of ints, and this one as a vector of longs."
  },
  {
   "property": "C79",
   "status": "proved",
   "theorems": [
    "GCV.GC.C79_kept",
    "GCV.GC.C79_changes"
   ],
   "note": "Proved."
  },
  {
   "property": "C80",
   "status": "partial",
   "theorems": [
    "GCV.GC.C80_pointers",
    "GCV.GC.C80_pointer",
    "GCV.GC.C80_pointer_at_negation"
   ],
   "note": "Refuted for get_pointer_at: on a vector of pointers it throws, and the non-const version has removed all the pointers by then (C80_pointer_at_negation). Exact behaviour for every content: C118."
  },
  {
   "property": "C81",
   "status": "proved",
   "theorems": [
    "GCV.GC.C81_to_array",
    "GCV.GC.C81_complex_parts"
   ],
   "note": "Proved."
  },
  {
   "property": "C82",
   "status": "partial",
   "theorems": [
    "GCV.GC.C82_index_partial",
    "GCV.GC.C82_negative_negation",
    "GCV.GC.C82_wrap_negation"
   ],
   "note": "True for 0 \u2264 i < 2^32; index -1 empties the vector and uses an element outside of it (undefined behaviour); 2^32 + k is element k."
  },
  {
   "property": "C83",
   "status": "proved",
   "theorems": [
    "GCV.GC.C83_nearest",
    "GCV.GC.C83_round_trip",
    "GCV.GC.C83_complex"
   ],
   "note": "Proved, under IEEE conversions (DESIGN 3.3)."
  },
  {
   "property": "C84",
   "status": "proved",
   "theorems": [
    "GCV.Ruby.C84_load",
    "GCV.Ruby.C84_new",
    "GCV.Ruby.C84_array_again",
    "GCV.Ruby.C84_hash_again",
    "GCV.Ruby.C84_raise"
   ],
   "note": "Proved. The ffi library and the Ruby values are modelled as in DESIGN 3.3."
  },
  {
   "property": "C85",
   "status": "proved",
   "theorems": [
    "GCV.Ruby.C85_get_data",
    "GCV.Ruby.C85_ends",
    "GCV.Ruby.C85_map"
   ],
   "note": "Proved, with the fact that get_data of a map does not end (C85_ends, C85_map)."
  },
  {
   "property": "C86",
   "status": "proved",
   "theorems": [
    "GCV.Ruby.C86_round_trip",
    "GCV.Ruby.C86_result",
    "GCV.Ruby.C86_changed"
   ],
   "note": "Proved as an equivalence."
  },
  {
   "property": "C87",
   "status": "proved",
   "theorems": [
    "GCV.GC.C87_agrees",
    "GCV.GC.C87_report",
    "GCV.GC.C87_undefined",
    "GCV.GC.C87_endless",
    "GCV.GC.C87_no_throw",
    "GCV.GC.C87_first"
   ],
   "note": "Proved."
  },
  {
   "property": "C88",
   "status": "proved",
   "theorems": [
    "GCV.GC.C88_read",
    "GCV.GC.C88_lost",
    "GCV.GC.C88_survives"
   ],
   "note": "Proved."
  },
  {
   "property": "C89",
   "status": "proved",
   "theorems": [
    "GCV.GC.C89_stores",
    "GCV.GC.C89_returns",
    "GCV.GC.C89_throws"
   ],
   "note": "Proved."
  },
  {
   "property": "C90",
   "status": "proved",
   "theorems": [
    "GCV.GC.C90_vec",
    "GCV.GC.C90_matrix",
    "GCV.GC.C90_columns",
    "GCV.GC.C90_map",
    "GCV.GC.C90_overflow"
   ],
   "note": "Proved."
  },
  {
   "property": "C91",
   "status": "proved",
   "theorems": [
    "GCV.GC.C91_promote",
    "GCV.GC.C91_vector"
   ],
   "note": "Proved."
  },
  {
   "property": "C92",
   "status": "proved",
   "theorems": [
    "GCV.GC.C92_number",
    "GCV.GC.C92_string"
   ],
   "note": "Proved."
  },
  {
   "property": "C93",
   "status": "proved",
   "theorems": [
    "GCV.GC.C93_at",
    "GCV.GC.C93_last"
   ],
   "note": "Proved."
  },
  {
   "property": "C94",
   "status": "proved",
   "theorems": [
    "GCV.GC.C94_integers",
    "GCV.GC.C94_others",
    "GCV.GC.C94_matrix"
   ],
   "note": "Proved."
  },
  {
   "property": "C95",
   "status": "proved",
   "theorems": [
    "GCV.GC.C95_counts",
    "GCV.GC.C95_number_at"
   ],
   "note": "Proved."
  },
  {
   "property": "C96",
   "status": "proved",
   "theorems": [
    "GCV.GC.C96_reads",
    "GCV.GC.C96_get_if_exists",
    "GCV.GC.C96_get_map_bool",
    "GCV.GC.C96_writes",
    "GCV.GC.C96_checked",
    "GCV.GC.C96_const",
    "GCV.GC.C96_whole",
    "GCV.GC.C96_checked_keys",
    "GCV.GC.C96_no_map"
   ],
   "note": "Proved."
  },
  {
   "property": "C97",
   "status": "proved",
   "theorems": [
    "GCV.GC.C97_read"
   ],
   "note": "Proved."
  },
  {
   "property": "C98",
   "status": "proved",
   "theorems": [
    "GCV.GC.C98_reference",
    "GCV.GC.C98_cell",
    "GCV.GC.C98_cell_const"
   ],
   "note": "Proved."
  },
  {
   "property": "C99",
   "status": "proved",
   "theorems": [
    "GCV.GC.C99_vector",
    "GCV.GC.C99_vector_throws",
    "GCV.GC.C99_map"
   ],
   "note": "Exact counterpart of C17."
  },
  {
   "property": "C100",
   "status": "proved",
   "theorems": [
    "GCV.GC.C100_json_again",
    "GCV.GC.C100_yaml_again",
    "GCV.GC.C100_json",
    "GCV.GC.C100_yaml"
   ],
   "note": "Exact counterpart of the text in C54 and C69, for containers with pointers too."
  },
  {
   "property": "C101",
   "status": "proved",
   "theorems": [
    "GCV.GC.C101_print_again",
    "GCV.GC.C101_print"
   ],
   "note": "Exact counterpart of C53 and C68."
  },
  {
   "property": "C102",
   "status": "proved",
   "theorems": [
    "GCV.GC.C102_depth",
    "GCV.GC.C102_write",
    "GCV.GC.C102_read"
   ],
   "note": "Proved."
  },
  {
   "property": "C103",
   "status": "partial",
   "theorems": [
    "GCV.GC.C103_table",
    "GCV.GC.C103_scalar_negation",
    "GCV.GC.C103_missing_negation",
    "GCV.GC.C103_execute",
    "GCV.GC.C103_execute_negation"
   ],
   "note": "Proved for tables and for programs without error. Refuted: scalars, missing variables and failed programs each leave a value on the stack, with the exact number of calls that are defined."
  },
  {
   "property": "C104",
   "status": "partial",
   "theorems": [
    "GCV.GC.C104_round_trip_partial",
    "GCV.GC.C104_vec_bool_negation",
    "GCV.GC.C104_empty_negation",
    "GCV.GC.C104_late_bool_negation",
    "GCV.GC.C104_table_negation"
   ],
   "note": "Refuted for what is not LuaBack: packed booleans, empty lists, types without a counterpart, lists with a boolean after another value, lists of numbers or strings with a list or map behind them; C117 says exactly what a list of any mixture becomes when it is read in order."
  },
  {
   "property": "C105",
   "status": "partial",
   "theorems": [
    "GCV.GC.C105_call_partial",
    "GCV.GC.C105_checked",
    "GCV.GC.C105_vec_bool_negation"
   ],
   "note": "Missing: arguments that are not LuaBack (packed booleans are refuted), results outside of LuaOk (for lists of any mixture C117 says what they become)."
  },
  {
   "property": "C106",
   "status": "proved",
   "theorems": [
    "GCV.GC.C106_refused",
    "GCV.GC.C106_yaml",
    "GCV.GC.C106_toml",
    "GCV.GC.C106_never_throws"
   ],
   "note": "Proved."
  },
  {
   "property": "C107",
   "status": "proved",
   "theorems": [
    "GCV.GC.C107_orderly",
    "GCV.GC.C107_reads",
    "GCV.GC.C107_littering",
    "GCV.GC.C107_do_file",
    "GCV.GC.C107_execute",
    "GCV.GC.C107_no_room",
    "GCV.GC.C107_nothing"
   ],
   "note": "Proved."
  },
  {
   "property": "C108",
   "status": "proved",
   "theorems": [
    "GCV.GC.C108_back",
    "GCV.GC.C108_over"
   ],
   "note": "Proved."
  },
  {
   "property": "C109",
   "status": "proved",
   "theorems": [
    "GCV.GC.C109_integers",
    "GCV.GC.C109_others",
    "GCV.GC.C109_result",
    "GCV.GC.C109_matrix"
   ],
   "note": "Proved."
  },
  {
   "property": "C110",
   "status": "partial",
   "theorems": [
    "GCV.GC.C110_consistent_partial",
    "GCV.GC.C110_consistent_negation"
   ],
   "note": "proved for a copy that fails on a column; refuted for contents that are refused as a whole (sizes stay, elements go)"
  },
  {
   "property": "C111",
   "status": "proved",
   "theorems": [
    "GCV.GC.C111_columns",
    "GCV.GC.C111_matrix",
    "GCV.GC.C111_formatted",
    "GCV.GC.C111_formatted_matrix",
    "GCV.GC.C111_width",
    "GCV.GC.C111_result",
    "GCV.GC.C111_container"
   ],
   "note": "Proved."
  },
  {
   "property": "C112",
   "status": "proved",
   "theorems": [
    "GCV.GC.C112_left"
   ],
   "note": "Proved."
  },
  {
   "property": "C113",
   "status": "proved",
   "theorems": [
    "GCV.GC.C113_result",
    "GCV.GC.C113_enough",
    "GCV.GC.C113_unique",
    "GCV.GC.C113_forever",
    "GCV.GC.C113_vector"
   ],
   "note": "Proved."
  },
  {
   "property": "C114",
   "status": "proved",
   "theorems": [
    "GCV.Heap.C114_history",
    "GCV.Heap.C114_no_leak"
   ],
   "note": "Proved."
  },
  {
   "property": "C115",
   "status": "partial",
   "theorems": [
    "GCV.Heap.C115_same_partial",
    "GCV.Heap.C115_others_partial",
    "GCV.Heap.C115_tag_negation",
    "GCV.Heap.C115_copy_leak_negation"
   ],
   "note": "False of the code, and refuted for every program: allocate_* and set_complex write the tag before `new`, so a failing `new` leaves a container whose destructor is undefined (C115_tag_negation); the copy constructor of a VECTOR loses its payload when the storage of the elements fails (C115_copy_leak_negation). Proved: containers not written to are unchanged, for every set of failing allocations. Storage of strings, packed vectors, matrices and map nodes does not fail in the model. C116 is the exact counterpart."
  },
  {
   "property": "C116",
   "status": "proved",
   "theorems": [
    "GCV.Heap.C116_destroy",
    "GCV.Heap.C116_outcome",
    "GCV.Heap.C116_new",
    "GCV.Heap.C116_kept",
    "GCV.Heap.C116_grow",
    "GCV.Heap.C116_grow_new",
    "GCV.Heap.C116_grow_fails",
    "GCV.Heap.C116_nogrow",
    "GCV.Heap.C116_grow_clean",
    "GCV.Heap.C116_copy"
   ],
   "note": "Exact counterpart of C115. HoldsVar and Broken are in Spec/HeapFail.lean; C116_destroy shows what HoldsVar is good for."
  },
  {
   "property": "C117",
   "status": "proved",
   "theorems": [
    "GCV.GC.C117_late",
    "GCV.GC.C117_left",
    "GCV.GC.C117_list",
    "GCV.GC.C117_table_first"
   ],
   "note": "Proved."
  },
  {
   "property": "C118",
   "status": "proved",
   "theorems": [
    "GCV.GC.C118_read",
    "GCV.GC.C118_write"
   ],
   "note": "Exact behaviour of both overloads for every content."
  },
  {
   "property": "C119",
   "status": "proved",
   "theorems": [
    "GCV.CApi.C119_outcome"
   ],
   "note": "Exact: the table `outcome` in Spec/COutcome.lean. GC_fill_for_test is left out here (it breaks the cursor, C33_fill_negation)."
  },
  {
   "property": "C120",
   "status": "proved",
   "theorems": [
    "GCV.Heap.C120_reference",
    "GCV.Heap.C120_payload",
    "GCV.Heap.C120_gone"
   ],
   "note": "Proved. In the memory model the elements of a std::vector that moves keep the address of its header, so nothing is claimed about references into a VECTOR that grows (C33 has that for the C interface)."
  },
  {
   "property": "C121",
   "status": "proved",
   "theorems": [
    "GCV.CApi.C121_fill",
    "GCV.CApi.C121_again"
   ],
   "note": "Proved."
  },
  {
   "property": "C122",
   "status": "proved",
   "theorems": [
    "GCV.Heap.C122_into_part",
    "GCV.Heap.C122_from_scalar",
    "GCV.Heap.C122_from_other",
    "GCV.Heap.C122_from_empty",
    "GCV.Heap.C122_from_cut",
    "GCV.Heap.C122_from_lost",
    "GCV.Heap.C122_from_map",
    "GCV.Heap.C122_from_vector",
    "GCV.Heap.C122_from_moved",
    "GCV.Heap.C122_from_nested"
   ],
   "note": "Proved. Not claimed: x = y with both VECTORs or both MAPs where the assignment to the element or entry that y is in is again such an assignment, changes that element and returns (y then changes while its elements are being copied), except x = x[i] for VECTORs that do not grow (C122_from_nested)."
  },
  {
   "property": "C123",
   "status": "proved",
   "theorems": [
    "GCV.Heap.C123_set_from_inside",
    "GCV.Heap.C123_set_own",
    "GCV.Heap.C123_set_from_elsewhere",
    "GCV.Heap.C123_push_from_elsewhere",
    "GCV.Heap.C123_push_own_element",
    "GCV.Heap.C123_push_own_number",
    "GCV.Heap.C123_push_from_inside",
    "GCV.Heap.C123_push_to_map"
   ],
   "note": "Proved. Arguments that refer to a payload or an element of it; a std::vector grows in place or moves, by an arbitrary function of the sizes. Not claimed: arguments that refer to storage of the caller which aliases nothing (those are the calls with a value, C114)."
  },
  {
   "property": "C124",
   "status": "proved",
   "theorems": [
    "GCV.Heap.C124_into_part",
    "GCV.Heap.C124_self",
    "GCV.Heap.C124_from_empty",
    "GCV.Heap.C124_from_map",
    "GCV.Heap.C124_from_lost",
    "GCV.Heap.C124_refused",
    "GCV.Heap.C124_nothing"
   ],
   "note": "Proved. Not claimed: as for C122."
  },
  {
   "property": "C125",
   "status": "proved",
   "theorems": [
    "GCV.GC.C125_own_vector",
    "GCV.GC.C125_own_matrix",
    "GCV.GC.C125_own_matrix_empty",
    "GCV.GC.C125_inside",
    "GCV.GC.C125_inside_never_returns",
    "GCV.GC.C125_inside_matrix",
    "GCV.GC.C125_column"
   ],
   "note": "Proved."
  }
 ]
}
