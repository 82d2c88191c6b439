{
 "claims": [
  {
   "property": "C01",
   "status": "proved",
   "theorems": [
    "Verif.Engine.C01_freq_list",
    "Verif.Engine.C01_returns"
   ],
   "note": "Every interleaving, any worker count, worker deaths allowed; the formatter (regex) is a parameter."
  },
  {
   "property": "C02",
   "status": "proved",
   "theorems": [
    "Verif.Engine.C02_each_file_once",
    "Verif.Engine.C02_runs_finite",
    "Verif.Engine.C02_maximal_run",
    "Verif.Engine.C02_completes"
   ],
   "note": ""
  },
  {
   "property": "C03",
   "status": "proved",
   "theorems": [
    "Verif.Engine.C03_never_undercounts",
    "Verif.Engine.C03_death_with_file_blocks",
    "Verif.Engine.C01_freq_list"
   ],
   "note": ""
  },
  {
   "property": "C04",
   "status": "proved",
   "theorems": [
    "Verif.Cooc.C04_matrix",
    "Verif.Cooc.C04_deterministic",
    "Verif.Cooc.C04_textbook_partial",
    "Verif.Cooc.C04_deaths_never_overcount",
    "Verif.Cooc.C04_false_deaths",
    "Verif.Cooc.C04_false_unfiltered"
   ],
   "note": "Per-file counts are those of C10_exact; they are the textbook counts for files without short segments (C04_textbook_partial). Temporary files are replaced by the matrix they hold (C28). A vocabulary filled by increment makes the worker raise KeyError (C04_false_unfiltered)."
  },
  {
   "property": "C05",
   "status": "partial",
   "theorems": [
    "Verif.Engine.C05_tokens_partial",
    "Verif.Engine.C05_false"
   ],
   "note": "False: the parent reads len(fnames) results although idle workers put one each. Proved for runs in which every worker got a file, with the exact number of results otherwise."
  },
  {
   "property": "C06",
   "status": "proved",
   "theorems": [
    "Verif.Engine.C06_first_call"
   ],
   "note": "The matches of a file are a parameter."
  },
  {
   "property": "C07",
   "status": "partial",
   "theorems": [
    "Verif.Engine.C07_false",
    "Verif.Engine.C07_kth_call",
    "Verif.Engine.C07_reread_partial"
   ],
   "note": "False whenever there is a match; exact growth law proved; holds if the templates are read anew."
  },
  {
   "property": "C08",
   "status": "partial",
   "theorems": [
    "Verif.Engine.C08_workers_partial",
    "Verif.Engine.C08_false_one_cpu",
    "Verif.Engine.C08_false_all_cpus",
    "Verif.Engine.C08_no_worker_blocks"
   ],
   "note": "False on one CPU and for a request equal to the CPU count."
  },
  {
   "property": "C09",
   "status": "proved",
   "theorems": [
    "Verif.Window.C09_window"
   ],
   "note": ""
  },
  {
   "property": "C10",
   "status": "partial",
   "theorems": [
    "Verif.Window.C10_exact",
    "Verif.Window.C10_counts_partial",
    "Verif.Window.C10_never_overcounts",
    "Verif.Window.C10_false"
   ],
   "note": "False: in a segment of 2..R lines the last line is not counted as a target. Exact formula proved for every file; textbook equality for files without such segments."
  },
  {
   "property": "C11",
   "status": "partial",
   "theorems": [
    "Verif.Window.C11_tokens_partial",
    "Verif.Window.C11_token_count",
    "Verif.Window.C11_false"
   ],
   "note": "Fails only for right span 0 with an empty segment (IndexError); proved otherwise."
  },
  {
   "property": "C12",
   "status": "proved",
   "theorems": [
    "Verif.Window.C12_counts_split",
    "Verif.Window.C12_tokens_split"
   ],
   "note": "Stated for a separator between any two parts; for tokens under the condition that no IndexError occurs (see C11)."
  },
  {
   "property": "C13",
   "status": "proved",
   "theorems": [
    "Verif.Engine.C13_file_freq",
    "Verif.Engine.C13_total",
    "Verif.Engine.C13_split"
   ],
   "note": ""
  },
  {
   "property": "C14",
   "status": "partial",
   "theorems": [
    "Verif.Window.C14_transpose_partial",
    "Verif.Window.C14_false"
   ],
   "note": "False at short segments (see C10)."
  },
  {
   "property": "C15",
   "status": "proved",
   "theorems": [
    "Verif.Window.C15_filter_commutes",
    "Verif.Window.C15_col_filter_commutes"
   ],
   "note": ""
  },
  {
   "property": "C16",
   "status": "proved",
   "theorems": [
    "Verif.Vocab.C16_vocab_refines_map",
    "Verif.Vocab.C16_defaultdict_reads",
    "Verif.Vocab.C16_defaultdict_read_inserts"
   ],
   "note": "Refinement to a finite map over any history for vocabularies built from a plain dict; a vocabulary built from a defaultdict gains zero entries by reads (second and third theorem)."
  },
  {
   "property": "C17",
   "status": "proved",
   "theorems": [
    "Verif.Vocab.C17_ranking",
    "Verif.Vocab.C17_item_list"
   ],
   "note": "Ranking is the sorted permutation; depends on the mapping only."
  },
  {
   "property": "C18",
   "status": "proved",
   "theorems": [
    "Verif.Vocab.C18_slice_top",
    "Verif.Vocab.C18_slice_any"
   ],
   "note": ""
  },
  {
   "property": "C19",
   "status": "proved",
   "theorems": [
    "Verif.Vocab.C19_select_items",
    "Verif.Vocab.C19_select_compare",
    "Verif.Vocab.C19_compare_means",
    "Verif.Vocab.C19_select_freqs",
    "Verif.Vocab.C19_select_tuple",
    "Verif.Vocab.C19_subvocab"
   ],
   "note": ""
  },
  {
   "property": "C20",
   "status": "partial",
   "theorems": [
    "Verif.Vocab.C20_plain_round_trip_partial",
    "Verif.Vocab.C20_plain_stable",
    "Verif.Vocab.C20_false",
    "Verif.Vocab.Plain.C20_boundaries",
    "Verif.Vocab.Plain.C20_count"
   ],
   "note": "False for items that are empty, start with white space or contain a tab or line boundary; exact iff proved. Float frequencies and byte encodings not modelled."
  },
  {
   "property": "C21",
   "status": "partial",
   "theorems": [
    "Verif.Matrix.C21_dict_to_matrix_partial",
    "Verif.Matrix.C21_round_trip_partial",
    "Verif.Matrix.C21_matrix_round_trip_partial",
    "Verif.Matrix.uniform_int",
    "Verif.Matrix.uniform_pyInt",
    "Verif.Matrix.uniform_pyFloat",
    "Verif.Matrix.C21_false_mixed",
    "Verif.Matrix.C21_false_bool",
    "Verif.Matrix.C21_unknown_item",
    "Verif.Matrix.C21_empty"
   ],
   "note": "False for values of mixed types (the first value decides the dtype) and for booleans (indices are cast too); proved for values of one numeric type. Empty dicts raise ValueError."
  },
  {
   "property": "C22",
   "status": "partial",
   "theorems": [
    "Verif.Matrix.C22_merge_partial",
    "Verif.Matrix.C22_commutative_partial",
    "Verif.Matrix.C22_associative_partial",
    "Verif.Matrix.C22_rows_differ",
    "Verif.Matrix.C22_false_transposed",
    "Verif.Matrix.C22_false_transposed_error"
   ],
   "note": "Proved for csr matrices; false for transposed (csc) operands with different columns, which are misread."
  },
  {
   "property": "C23",
   "status": "partial",
   "theorems": [
    "Verif.Matrix.C23_submatrix_partial",
    "Verif.Matrix.C23_dense_partial",
    "Verif.Matrix.C23_dense_read",
    "Verif.Matrix.C23_false_dense",
    "Verif.Matrix.C23_false_square_rows"
   ],
   "note": "Proved for csr/csc matrices with any requests; for dense matrices the exact outcome is proved, which is a ValueError when the selection looks symmetric but the names differ."
  },
  {
   "property": "C24",
   "status": "partial",
   "theorems": [
    "Verif.Matrix.C24_transpose_partial",
    "Verif.Matrix.C24_reorderRows_partial",
    "Verif.Matrix.C24_reorderCols_partial",
    "Verif.Matrix.C24_reorder_back_partial",
    "Verif.Matrix.C24_reorder_cols_back_partial",
    "Verif.Matrix.C24_reorder_unknown",
    "Verif.Matrix.C24_concatRows_partial",
    "Verif.Matrix.C24_concatCols_partial",
    "Verif.Matrix.C24_concat_refuses",
    "Verif.Matrix.C24_false_symmetric",
    "Verif.Matrix.C24_dense_reorderRows_partial",
    "Verif.Matrix.C24_dense_reorderCols_partial",
    "Verif.Matrix.C24_dense_concatRows_partial",
    "Verif.Matrix.C24_dense_concatCols_partial",
    "Verif.Matrix.C24_reorder_empty",
    "Verif.Matrix.C24_false_concatCols_read"
   ],
   "note": "False for symmetric dense matrices (NotImplementedError) and for reading after concatenating columns of csr matrices (TypeError)."
  },
  {
   "property": "C25",
   "status": "proved",
   "theorems": [
    "Verif.Matrix.C25_threshold_value",
    "Verif.Matrix.C25_above",
    "Verif.Matrix.C25_zero_refused"
   ],
   "note": "Proved for every comparison and every number except >= 0 and <= 0, which SciPy refuses."
  },
  {
   "property": "C26",
   "status": "partial",
   "theorems": [
    "Verif.Matrix.C26_drop_empty_rows_partial",
    "Verif.Matrix.C26_drop_empty_cols_partial",
    "Verif.Matrix.C26_idempotent_partial",
    "Verif.Matrix.C26_idempotent_cols_partial",
    "Verif.Matrix.C26_dense",
    "Verif.Matrix.C26_false_all_empty",
    "Verif.Matrix.C26_false_explicit"
   ],
   "note": "Proved for sparse matrices with a non-zero entry; an all-empty matrix gives None (rows) or AttributeError (columns); explicit=True keeps rows of stored zeros."
  },
  {
   "property": "C27",
   "status": "partial",
   "theorems": [
    "Verif.Matrix.C27_positions_partial",
    "Verif.Matrix.C27_unique_partial",
    "Verif.Matrix.C27_false_nearest",
    "Verif.Matrix.C27_empty"
   ],
   "note": "False: the entry is the greatest signed distance, not the nearest occurrence."
  },
  {
   "property": "C28",
   "status": "partial",
   "theorems": [
    "Verif.Matrix.C28_roundtrip_partial",
    "Verif.Matrix.C28_csc_outcome",
    "Verif.Matrix.C28_coo_fails",
    "Verif.Matrix.C28_false_pac_name",
    "Verif.Matrix.C28_stale_outcome",
    "Verif.Matrix.C28_false_stale",
    "Verif.Matrix.C28_false_csc",
    "Verif.Matrix.C28_archive_name",
    "Verif.Matrix.C28_missing"
   ],
   "note": "Proved for csr and dense matrices, names without the .pac clash and no stale files; false for csc matrices (come back transposed or fail), coo matrices, stale files and some names."
  },
  {
   "property": "C29",
   "status": "partial",
   "theorems": [
    "Verif.Matrix.C29_simrank",
    "Verif.Matrix.C29_most_similar_partial",
    "Verif.Matrix.C29_false_count",
    "Verif.Matrix.C29_unsupported"
   ],
   "note": "Ranks proved in full; most_similar can return k+1 items when the item is not strictly closest to itself; sparse and non-symmetric matrices are not supported."
  },
  {
   "property": "C30",
   "status": "partial",
   "theorems": [
    "Verif.Assoc.C30_ppmi_is_positive_part",
    "Verif.Assoc.C30_nonneg",
    "Verif.Assoc.C30_defined",
    "Verif.Assoc.C30_positive_exact",
    "Verif.Assoc.C30_positive_partial",
    "Verif.Assoc.C30_false"
   ],
   "note": "max(0, pmi) and non-negativity in full; the sign rule fails when the expected frequency is exactly 1 (adjust_val replaces it)."
  },
  {
   "property": "C31",
   "status": "partial",
   "theorems": [
    "Verif.Assoc.C31_agree_partial",
    "Verif.Assoc.C31_agree_pmi_partial",
    "Verif.Assoc.C31_false",
    "Verif.Assoc.C31_matrix_partial",
    "Verif.Assoc.C31_false_totals",
    "Verif.Assoc.C31_false_default"
   ],
   "note": "Equal cell by cell unless the expected frequency is 1; the two functions also use different totals unless one is passed."
  },
  {
   "property": "C32",
   "status": "partial",
   "theorems": [
    "Verif.Assoc.C32_dice",
    "Verif.Assoc.C32_deltap",
    "Verif.Assoc.C32_chisq",
    "Verif.Assoc.C32_zscore",
    "Verif.Assoc.C32_llr_bound",
    "Verif.Assoc.C32_llr_nonneg_partial",
    "Verif.Assoc.C32_false_llr",
    "Verif.Assoc.C32_zero_margin"
   ],
   "note": "All but the last proved; the log-likelihood ratio can be slightly negative for tables with an empty cell (bounded by C32_llr_bound)."
  },
  {
   "property": "C33",
   "status": "partial",
   "theorems": [
    "Verif.Assoc.C33_symmetric",
    "Verif.Assoc.C33_llr_partial",
    "Verif.Assoc.C33_false_llr",
    "Verif.Assoc.C33_false_llr_value"
   ],
   "note": "LLR is symmetric only for tables without empty cells."
  },
  {
   "property": "C34",
   "status": "proved",
   "theorems": [
    "Verif.Assoc.C34_named",
    "Verif.Assoc.C34_cells",
    "Verif.Assoc.C34_defined",
    "Verif.Assoc.C34_refused"
   ],
   "note": "Floats are reals; final float32 conversion left out."
  },
  {
   "property": "C35",
   "status": "proved",
   "theorems": [
    "Verif.Assoc.C35_weights",
    "Verif.Assoc.C35_row_order",
    "Verif.Assoc.C35_refused",
    "Verif.Assoc.C35_token_type"
   ],
   "note": "For sparse matrices, the kind the library builds."
  },
  {
   "property": "C36",
   "status": "partial",
   "theorems": [
    "Verif.Assoc.C36_addition",
    "Verif.Assoc.C36_addition_raw",
    "Verif.Assoc.C36_order_irrelevant",
    "Verif.Assoc.C36_refused",
    "Verif.Assoc.C36_refused_format",
    "Verif.Assoc.C36_refused_coo",
    "Verif.Assoc.C36_multiplication_actual",
    "Verif.Assoc.C36_false_multiplication"
   ],
   "note": "Addition in full for csr matrices; multiplication gives 0 or 1 instead of the product."
  },
  {
   "property": "C37",
   "status": "partial",
   "theorems": [
    "Verif.Dep.C37_partial",
    "Verif.Dep.C37_injective",
    "Verif.Dep.C37_not_tree",
    "Verif.Dep.C37_false_unconstrained",
    "Verif.Dep.C37_false_line"
   ],
   "note": "All embeddings, each once, for rooted patterns with node 1 whose nodes and edges all carry a condition; a node or edge without condition matches nothing, and a condition on line numbers raises TypeError (C37_false_line). Sentences that are not trees are skipped."
  },
  {
   "property": "C38",
   "status": "partial",
   "theorems": [
    "Verif.Dep.C38_partial",
    "Verif.Dep.C38_target_string",
    "Verif.Dep.C38_false_no_targets",
    "Verif.Dep.C38_false_group"
   ],
   "note": "The recorded matches are those whose raw target values joined by the connector are in the target list; with no targets nothing is kept; the filter ignores regex groups while the reported target string uses them."
  },
  {
   "property": "C39",
   "status": "partial",
   "theorems": [
    "Verif.Dep.C39_sentences",
    "Verif.Dep.C39_lines",
    "Verif.Dep.C39_partial",
    "Verif.Dep.C39_false_empty"
   ],
   "note": "Sentences are exactly the groups of word lines between separators and each adds its matches; false when a separator has no word line before it: the empty sentence raises ValueError."
  },
  {
   "property": "C40",
   "status": "partial",
   "theorems": [
    "Verif.Dep.C40_partial",
    "Verif.Dep.C40_any_degree",
    "Verif.Dep.C40_false_star",
    "Verif.Dep.C40_false_single"
   ],
   "note": "Proved for trees whose nodes have at most three neighbours; for any tree: no path is missed, and a pattern wrongly called linear has a node with four or more neighbours; a star with four leaves is called linear, a single node is not."
  },
  {
   "property": "C41",
   "status": "proved",
   "theorems": [
    "Verif.Dep.C41_root",
    "Verif.Dep.C41_root_unique",
    "Verif.Dep.C41_depth",
    "Verif.Dep.C41_no_node_one"
   ],
   "note": ""
  },
  {
   "property": "C42",
   "status": "partial",
   "theorems": [
    "Verif.Dep.C42_partial",
    "Verif.Dep.C42_false_root",
    "Verif.Dep.C42_false_line"
   ],
   "note": "Proved for patterns rooted in node 1; for another root only the part below node 1 is shown. Formats that show line numbers raise TypeError (C42_false_line)."
  },
  {
   "property": "C43",
   "status": "partial",
   "theorems": [
    "Verif.Cbc.C43_once",
    "Verif.Cbc.C43_partial",
    "Verif.Cbc.C43_false_two",
    "Verif.Cbc.C43_false_tie"
   ],
   "note": "Each committee is in exactly one pair or alone and pairs reach theta1, for all inputs; mutual nearest neighbours are merged only under the conditions of C43_partial: two committees are never merged, ties may split."
  },
  {
   "property": "C44",
   "status": "partial",
   "theorems": [
    "Verif.Cbc.C44_antichain",
    "Verif.Cbc.C44_from_input",
    "Verif.Cbc.C44_singletons",
    "Verif.Cbc.C44_partial",
    "Verif.Cbc.C44_scores_partial",
    "Verif.Cbc.C44_exact",
    "Verif.Cbc.C44_exact_part",
    "Verif.Cbc.C44_false"
   ],
   "note": "Duplicates that are not adjacent after sorting by score remove each other, so a minimal cluster can be lost (C44_false). C44_exact says exactly which clusters are kept: the minimal ones whose copies stand together in the ranking."
  },
  {
   "property": "C45",
   "status": "partial",
   "theorems": [
    "Verif.Cbc.C45_rounds",
    "Verif.Cbc.C45_round",
    "Verif.Cbc.C45_partial",
    "Verif.Cbc.C45_false"
   ],
   "note": "A round that raises is recorded with no residues, so its elements are lost."
  },
  {
   "property": "C46",
   "status": "partial",
   "theorems": [
    "Verif.Cbc.C46_exact",
    "Verif.Cbc.C46_partial",
    "Verif.Cbc.C46_false",
    "Verif.Cbc.C46_false_one_cpu"
   ],
   "note": "True when every pool task is run in a process of its own; two tasks of one process write the same file and the clusters of the first are lost; on a machine with one processor there are no tasks."
  },
  {
   "property": "C47",
   "status": "proved",
   "theorems": [
    "Verif.Cbc.C47_index",
    "Verif.Cbc.C47_average",
    "Verif.Cbc.C47_between",
    "Verif.Cbc.C47_small",
    "Verif.Cbc.C47_outside"
   ],
   "note": ""
  },
  {
   "property": "C48",
   "status": "proved",
   "theorems": [
    "Verif.Cbc.C48_partition",
    "Verif.Cbc.C48_remap",
    "Verif.Cbc.C48_remap_missing",
    "Verif.Cbc.C48_scores"
   ],
   "note": "fcluster is a parameter giving one label per element."
  },
  {
   "property": "C49",
   "status": "proved",
   "theorems": [
    "Verif.Setup.C49_load",
    "Verif.Setup.C49_refused",
    "Verif.Setup.C49_update",
    "Verif.Setup.C49_given"
   ],
   "note": "ConfigParser is a parameter: the sections, options and raw values of a file in order."
  },
  {
   "property": "C50",
   "status": "partial",
   "theorems": [
    "Verif.Setup.C50_partial",
    "Verif.Setup.C50_false_output",
    "Verif.Setup.C50_false_neither"
   ],
   "note": "False: the test for output-path is inverted."
  },
  {
   "property": "C51",
   "status": "partial",
   "theorems": [
    "Verif.Setup.C51_partial",
    "Verif.Setup.C51_false",
    "Verif.Setup.C51_false_default"
   ],
   "note": "False in handlers: the encoding is passed as the directory."
  },
  {
   "property": "C52",
   "status": "partial",
   "theorems": [
    "Verif.Setup.Save.C52_partial",
    "Verif.Setup.Save.C52_flat",
    "Verif.Setup.Save.C52_false_inner",
    "Verif.Setup.Save.C52_false_outer"
   ],
   "note": "False for nested objects when writing a separate file fails; true for objects without inner objects."
  },
  {
   "property": "C53",
   "status": "partial",
   "theorems": [
    "Verif.Matrix.C53_row_sums_partial",
    "Verif.Matrix.C53_col_sums_partial",
    "Verif.Matrix.C53_total",
    "Verif.Matrix.C53_false_single"
   ],
   "note": "False for a single row (column): TypeError."
  },
  {
   "property": "C54",
   "status": "partial",
   "theorems": [
    "Verif.Matrix.C54_drop_rows_partial",
    "Verif.Matrix.C54_drop_cols_partial",
    "Verif.Matrix.C54_false_single"
   ],
   "note": "False for a single row (column): IndexError."
  },
  {
   "property": "C55",
   "status": "partial",
   "theorems": [
    "Verif.Matrix.C55_merge_partial",
    "Verif.Matrix.C55_dense_refused",
    "Verif.Matrix.C55_empty",
    "Verif.Matrix.C55_false_empty"
   ],
   "note": "Proved for integer matrices; fails only if neither operand stores an entry (ValueError). Dense matrices are refused (NotImplementedError)."
  },
  {
   "property": "C56",
   "status": "partial",
   "theorems": [
    "Verif.Matrix.C56_merge_all_partial",
    "Verif.Matrix.C56_empty",
    "Verif.Matrix.C56_false_empty"
   ],
   "note": "Proved for integer matrices; fails only if the item lists differ and no matrix stores an entry (ValueError)."
  },
  {
   "property": "C57",
   "status": "partial",
   "theorems": [
    "Verif.Matrix.C57_save_frame_partial",
    "Verif.Matrix.C57_load_keeps",
    "Verif.Matrix.C57_load_unpacked_keeps",
    "Verif.Matrix.C57_load_frame",
    "Verif.Matrix.C57_false_unpacked_lost"
   ],
   "note": "False: saving packed deletes an unpacked matrix with the same base name."
  },
  {
   "property": "C58",
   "status": "partial",
   "theorems": [
    "Verif.Matrix.C58_equal_partial",
    "Verif.Matrix.C58_exact",
    "Verif.Matrix.C58_false_stored_zero"
   ],
   "note": "True implies equality always; the converse fails with explicitly stored zeros."
  },
  {
   "property": "C59",
   "status": "proved",
   "theorems": [
    "Verif.Matrix.C59_contexts",
    "Verif.Matrix.C59_unknown"
   ],
   "note": ""
  },
  {
   "property": "C60",
   "status": "partial",
   "theorems": [
    "Verif.Matrix.C60_sample",
    "Verif.Matrix.C60_refused",
    "Verif.Matrix.C60_floats",
    "Verif.Matrix.C60_false_all"
   ],
   "note": "Proved for integers and fractions below 1; a float of 1 or more is a TypeError, not a ValueError."
  },
  {
   "property": "C61",
   "status": "proved",
   "theorems": [
    "Verif.Assoc.C61_unit_norm",
    "Verif.Assoc.C36_addition"
   ],
   "note": "C36_addition states that rows are only divided by their norm."
  },
  {
   "property": "C62",
   "status": "proved",
   "theorems": [
    "Verif.Assoc.C62_weighted_mean",
    "Verif.Assoc.C62_signed"
   ],
   "note": "C62_signed gives the value for weights of any sign."
  },
  {
   "property": "C63",
   "status": "proved",
   "theorems": [
    "Verif.Assoc.C63_cosine",
    "Verif.Assoc.C63_scale_invariant",
    "Verif.Assoc.C63_axis",
    "Verif.Assoc.C63_empty"
   ],
   "note": ""
  },
  {
   "property": "C64",
   "status": "partial",
   "theorems": [
    "Verif.Assoc.C64_chisq",
    "Verif.Assoc.C64_zscore",
    "Verif.Assoc.C64_dice",
    "Verif.Assoc.C64_deltap",
    "Verif.Assoc.C64_pmi_near",
    "Verif.Assoc.C64_pmi_partial",
    "Verif.Assoc.C64_pmi_zero",
    "Verif.Assoc.C64_logratio_near",
    "Verif.Assoc.C64_false_logratio",
    "Verif.Assoc.C64_llr_near",
    "Verif.Assoc.C64_llr_partial"
   ],
   "note": "chisq, zscore, dice, deltap exact; pmi, lik and logratio within about 1e-10 (per token for lik) because adjust_val replaces 0 and 1; logratio is wrong when the collocate never occurs elsewhere."
  },
  {
   "property": "C65",
   "status": "partial",
   "theorems": [
    "Verif.Dep.C65_partial",
    "Verif.Dep.C65_false_nested",
    "Verif.Dep.C65_false_space"
   ],
   "note": "Proved when no item of a bracketed list contains a comma (lists of several branches not nested) and no white space stands between a later arrow and a bracket; both other cases are misread without error."
  },
  {
   "property": "C66",
   "status": "partial",
   "theorems": [
    "Verif.Dep.C66_partial",
    "Verif.Dep.C66_false_colon"
   ],
   "note": "Proved if the relation of the target has no colon or the target is an only dependent; otherwise the target label is cut at the first colon."
  },
  {
   "property": "C67",
   "status": "partial",
   "theorems": [
    "Verif.Dep.C67_partial",
    "Verif.Dep.C67_counts",
    "Verif.Dep.C67_false_none"
   ],
   "note": "Proved whenever there is a match; without any match ValueError is raised instead of an empty matrix."
  },
  {
   "property": "C68",
   "status": "partial",
   "theorems": [
    "Verif.Dep.C68_partial",
    "Verif.Dep.C68_false_order"
   ],
   "note": "Proved if the target is an only dependent or its relation differs from its fellow dependents; otherwise dependents are sorted by a key that contains the target word."
  },
  {
   "property": "C69",
   "status": "proved",
   "theorems": [
    "Verif.Dep.C69_graph",
    "Verif.Dep.C69_tree",
    "Verif.Dep.C69_tree_exact"
   ],
   "note": "For formats with node-attr, edge-attr, currID and headID set and well-formed lines."
  },
  {
   "property": "C70",
   "status": "partial",
   "theorems": [
    "Verif.Dep.C70_partial",
    "Verif.Dep.C70_false_no_targets"
   ],
   "note": "Proved end to end when at least one match is recorded; sentences whose graph is not a tree are skipped (SentenceAdds); without targets, or without any match, ValueError."
  },
  {
   "property": "C71",
   "status": "partial",
   "theorems": [
    "Verif.Cbc.C71_score_func",
    "Verif.Cbc.C71_false_ignored",
    "Verif.Cbc.C71_false"
   ],
   "note": "False: highest_score is never passed to step 1 and score_func is not used."
  },
  {
   "property": "C72",
   "status": "partial",
   "theorems": [
    "Verif.Cbc.C72_partial",
    "Verif.Cbc.C72_false"
   ],
   "note": "False: the committees extended by step 3 are not returned."
  },
  {
   "property": "C73",
   "status": "partial",
   "theorems": [
    "Verif.Cbc.C73_partial",
    "Verif.Cbc.C73_none",
    "Verif.Cbc.C73_false"
   ],
   "note": "Holds if some cluster has a positive score."
  },
  {
   "property": "C74",
   "status": "partial",
   "theorems": [
    "Verif.Cbc.C74_partial",
    "Verif.Cbc.C74_false"
   ],
   "note": "False: see C44; supersets are dropped with all their elements."
  },
  {
   "property": "C75",
   "status": "proved",
   "theorems": [
    "Verif.Cbc.C75_minsize",
    "Verif.Cbc.C75_distance",
    "Verif.Cbc.C75_unknown"
   ],
   "note": "Given the contract of fcluster (elements joined at or below the cut height share a label)."
  },
  {
   "property": "C76",
   "status": "proved",
   "theorems": [
    "Verif.Cbc.C76_committees"
   ],
   "note": "For rounds whose matrix rows are the elements (see C78); cosine, committee vectors and argsort are parameters."
  },
  {
   "property": "C77",
   "status": "proved",
   "theorems": [
    "Verif.Cbc.C77_vector",
    "Verif.Cbc.C77_sign",
    "Verif.Cbc.C77_order"
   ],
   "note": "Floats are reals."
  },
  {
   "property": "C78",
   "status": "partial",
   "theorems": [
    "Verif.Cbc.C45_round",
    "Verif.Cbc.C78_false_rows",
    "Verif.Cbc.C78_false_subset"
   ],
   "note": "Holds when the rows are the elements in the same order or a sub-matrix is taken (C45_round, hypothesis Aligned); false otherwise."
  },
  {
   "property": "C79",
   "status": "partial",
   "theorems": [
    "Verif.Cbc.C79_partial",
    "Verif.Cbc.C79_near",
    "Verif.Cbc.C79_false"
   ],
   "note": "Equal unless the expected frequency is exactly 1, where compute_association adjusts it."
  },
  {
   "property": "C80",
   "status": "partial",
   "theorems": [
    "Verif.Setup.C49_refused",
    "Verif.Setup.C80_false",
    "Verif.Setup.C80_false_loader"
   ],
   "note": "False: a missing file is read as an empty one."
  },
  {
   "property": "C81",
   "status": "partial",
   "theorems": [
    "Verif.Setup.C81_partial",
    "Verif.Setup.C81_false",
    "Verif.Setup.C81_false_output"
   ],
   "note": "False: the default directory ~/tmp is always emptied."
  },
  {
   "property": "C82",
   "status": "proved",
   "theorems": [
    "Verif.Setup.C82_corpus",
    "Verif.Setup.C82_order"
   ],
   "note": "os.walk is a parameter."
  },
  {
   "property": "C83",
   "status": "partial",
   "theorems": [
    "Verif.Setup.Save.C83_partial",
    "Verif.Setup.Save.C83_false"
   ],
   "note": "False: an attribute listed in separately that is no array is silently not stored."
  },
  {
   "property": "C84",
   "status": "proved",
   "theorems": [
    "Verif.Items.C84_columns",
    "Verif.Items.C84_refused"
   ],
   "note": "Regular expressions are a parameter: a match is its groups."
  },
  {
   "property": "C85",
   "status": "partial",
   "theorems": [
    "Verif.Items.C85_partial",
    "Verif.Items.C85_false_one",
    "Verif.Items.C85_false_other",
    "Verif.Items.C85_false_left_right"
   ],
   "note": "False: the two names are swapped in the constructor, so both must be set; left-right raises at the first line that is no item."
  },
  {
   "property": "C86",
   "status": "partial",
   "theorems": [
    "Verif.Items.C86_partial",
    "Verif.Items.C86_false"
   ],
   "note": "False: an unknown column gives the whole matched line."
  },
  {
   "property": "C87",
   "status": "partial",
   "theorems": [
    "Verif.Items.C87_partial",
    "Verif.Items.C87_false"
   ],
   "note": "False: colloc is added to the caller's settings."
  },
  {
   "property": "C88",
   "status": "partial",
   "theorems": [
    "Verif.Items.C88_partial",
    "Verif.Items.C88_machine",
    "Verif.Items.C88_false"
   ],
   "note": "False for the three machines other than line-machine."
  },
  {
   "property": "C89",
   "status": "partial",
   "theorems": [
    "Verif.Items.C89_built",
    "Verif.Items.C89_partial",
    "Verif.Items.C89_false_twice",
    "Verif.Items.C89_false_empty",
    "Verif.Items.C89_false_slash"
   ],
   "note": "True for formats without repetition and non-empty strings; false otherwise, and for columns that contain a slash."
  },
  {
   "property": "C90",
   "status": "partial",
   "theorems": [
    "Verif.Items.C90_partial_type",
    "Verif.Items.C90_partial_item",
    "Verif.Items.C90_partial_token",
    "Verif.Items.C90_given_format",
    "Verif.Items.C90_false_column",
    "Verif.Items.C90_false_order"
   ],
   "note": "False for formats with columns other than word, lemma, pos."
  },
  {
   "property": "C91",
   "status": "partial",
   "theorems": [
    "Verif.Items.C91_partial",
    "Verif.Items.C91_false"
   ],
   "note": "False for files in sub-directories."
  },
  {
   "property": "C92",
   "status": "partial",
   "theorems": [
    "Verif.Items.C92_partial",
    "Verif.Items.C92_false_extension",
    "Verif.Items.C92_false_slash"
   ],
   "note": "True for files of one extension and columns without slash."
  },
  {
   "property": "C93",
   "status": "partial",
   "theorems": [
    "Verif.Items.C93_partial",
    "Verif.Items.C93_false"
   ],
   "note": "False for nodes built from strings, such as all those of the token handler: sampling raises."
  },
  {
   "property": "C94",
   "status": "proved",
   "theorems": [
    "Verif.Items.C94_merge",
    "Verif.Items.C94_append"
   ],
   "note": ""
  },
  {
   "property": "C95",
   "status": "partial",
   "theorems": [
    "Verif.Items.C95_partial",
    "Verif.Items.C95_item",
    "Verif.Items.C95_load",
    "Verif.Items.C95_token_shifted",
    "Verif.Items.C95_false"
   ],
   "note": "False: loading always raises. The partial theorem says what the file holds."
  },
  {
   "property": "C96",
   "status": "proved",
   "theorems": [
    "Verif.Front.C96_queries",
    "Verif.Front.C96_determined"
   ],
   "note": ""
  },
  {
   "property": "C97",
   "status": "partial",
   "theorems": [
    "Verif.Front.C97_table_partial",
    "Verif.Front.C97_default",
    "Verif.Front.C97_lost",
    "Verif.Front.C97_false",
    "Verif.Front.C97_default_false"
   ],
   "note": "False for words with a colon, which are dropped, and for lines without any entry, whose default is None."
  },
  {
   "property": "C98",
   "status": "partial",
   "theorems": [
    "Verif.Front.C98_word_partial",
    "Verif.Front.C98_no_key"
   ],
   "note": "True if the caller passes the default key; without it, a KeyError for corpora not listed."
  },
  {
   "property": "C99",
   "status": "proved",
   "theorems": [
    "Verif.Front.C99_select"
   ],
   "note": ""
  },
  {
   "property": "C100",
   "status": "partial",
   "theorems": [
    "Verif.Front.C100_match_partial",
    "Verif.Front.C100_freq"
   ],
   "note": "True for items; matching the column freq always raises. Regular expressions are a parameter."
  },
  {
   "property": "C101",
   "status": "partial",
   "theorems": [
    "Verif.Front.C101_attribute",
    "Verif.Front.C101_false",
    "Verif.Front.C101_deepcopy",
    "Verif.Front.C101_usual",
    "Verif.Front.C101_method"
   ],
   "note": "False: unknown names give None, so copy.deepcopy calls None. The method deepcopy works."
  },
  {
   "property": "C102",
   "status": "partial",
   "theorems": [
    "Verif.Front.C102_meetable",
    "Verif.Front.C102_never",
    "Verif.Front.C102_false"
   ],
   "note": "False: NameError for every word."
  },
  {
   "property": "C103",
   "status": "proved",
   "theorems": [
    "Verif.Front.C103_types"
   ],
   "note": ""
  },
  {
   "property": "C104",
   "status": "proved",
   "theorems": [
    "Verif.Front.C104_lines",
    "Verif.Front.C104_readable",
    "Verif.Front.C104_failure",
    "Verif.Front.C104_unwritable",
    "Verif.Front.C104_blanks"
   ],
   "note": ""
  },
  {
   "property": "C105",
   "status": "partial",
   "theorems": [
    "Verif.Front.C105_positions_partial",
    "Verif.Front.C105_repeated",
    "Verif.Front.C105_false"
   ],
   "note": "False for repeated collocates: the farthest right, else the farthest left position is recorded."
  },
  {
   "property": "C106",
   "status": "partial",
   "theorems": [
    "Verif.Front.C106_weights_partial",
    "Verif.Front.C106_sizes",
    "Verif.Front.C106_no_context",
    "Verif.Front.C106_slash",
    "Verif.Front.C106_false"
   ],
   "note": "True for columns in the same order and file identifiers without slash; otherwise weights stand under wrong names or are lost, and a token without contexts is a KeyError."
  },
  {
   "property": "C107",
   "status": "partial",
   "theorems": [
    "Verif.Flow.C107_fit_partial",
    "Verif.Flow.C107_exact",
    "Verif.Flow.C107_false_formats"
   ],
   "note": "True if types and collocates are written alike and no segment has 2 to R lines; C107_exact says what is computed otherwise."
  },
  {
   "property": "C108",
   "status": "partial",
   "theorems": [
    "Verif.Flow.C108_second_fit",
    "Verif.Flow.C108_same_types_partial",
    "Verif.Flow.C108_false"
   ],
   "note": "False: the vocabulary of the first fit is kept; true if the same types occur."
  },
  {
   "property": "C109",
   "status": "partial",
   "theorems": [
    "Verif.Flow.C109_negative",
    "Verif.Flow.C109_ignored",
    "Verif.Flow.C109_false"
   ],
   "note": "False: negative bounds are refused, all others are ignored."
  },
  {
   "property": "C110",
   "status": "partial",
   "theorems": [
    "Verif.Flow.C110_call_partial",
    "Verif.Flow.C110_name",
    "Verif.Flow.C110_false"
   ],
   "note": "False: always a TypeError, as the marginal frequencies are not passed; a corpus name that is given is replaced by the last part of the path."
  },
  {
   "property": "C111",
   "status": "partial",
   "theorems": [
    "Verif.Flow.C111_retrieve_partial",
    "Verif.Flow.C111_nothing",
    "Verif.Flow.C111_false"
   ],
   "note": "False: the greatest, not the nearest distance is recorded for repeated collocates; not covered are workers without file (C165 covers what they return), right span 0 and tokens with equal names (C211)."
  },
  {
   "property": "C112",
   "status": "partial",
   "theorems": [
    "Verif.Flow.C112_exact",
    "Verif.Flow.C112_vocabulary_partial",
    "Verif.Flow.C112_false"
   ],
   "note": "False: distances are counted among the collocates in the vocabulary only. C112_exact says what is computed."
  },
  {
   "property": "C113",
   "status": "partial",
   "theorems": [
    "Verif.Flow.C113_unchanged",
    "Verif.Flow.C113_false",
    "Verif.Flow.C113_errors",
    "Verif.Flow.C113_select_partial",
    "Verif.Flow.C113_select_refused",
    "Verif.Flow.C113_select_empty",
    "Verif.Flow.C113_retrieve",
    "Verif.Flow.C113_queries_samples",
    "Verif.Flow.C113_new"
   ],
   "note": "False: after every history each of these methods raises (undefined names, missing arguments) and none of the attributes is ever set; types can be selected if the caller sets the vocabulary."
  },
  {
   "property": "C114",
   "status": "partial",
   "theorems": [
    "Verif.Flow.C114_similarity_partial",
    "Verif.Flow.C114_rank",
    "Verif.Flow.C114_distance",
    "Verif.Flow.C114_given_ranks",
    "Verif.Flow.C114_metric",
    "Verif.Flow.C114_false"
   ],
   "note": "True for given matrices; without one all of them raise, and distances are kept as the similarities."
  },
  {
   "property": "C115",
   "status": "partial",
   "theorems": [
    "Verif.Flow.C115_matrix_partial",
    "Verif.Flow.C115_nothing",
    "Verif.Flow.C115_types",
    "Verif.Flow.C115_attribute",
    "Verif.Flow.C115_attribute_used",
    "Verif.Flow.C115_false"
   ],
   "note": "Tokens without a recorded collocate have no row; a type without any makes the whole call a ValueError."
  },
  {
   "property": "C116",
   "status": "partial",
   "theorems": [
    "Verif.Flow.C116_queries",
    "Verif.Flow.C116_exact",
    "Verif.Flow.C116_rows",
    "Verif.Flow.C116_false",
    "Verif.Flow.C116_generate",
    "Verif.Flow.C116_failed_attr"
   ],
   "note": "False: the matrix of tokens is asked for rows named like the variants, which is a KeyError; generate_vectors then raises AttributeError. Only the beginning of generate_vectors is modelled."
  },
  {
   "property": "C117",
   "status": "partial",
   "theorems": [
    "Verif.Dep.C117_partial",
    "Verif.Dep.C117_exact",
    "Verif.Dep.C117_false"
   ],
   "note": "True if the tags of graphs stand on lines of their own; otherwise graphs are lost or merged without an exception. What networkx reads is a parameter."
  },
  {
   "property": "C118",
   "status": "partial",
   "theorems": [
    "Verif.Dep.C118_partial",
    "Verif.Dep.C118_exact",
    "Verif.Dep.C118_false"
   ],
   "note": "True if only node attributes have defaults; defaults of edge attributes become conditions of nodes, which no word meets, and the edges stay without."
  },
  {
   "property": "C119",
   "status": "partial",
   "theorems": [
    "Verif.Dep.C119_partial",
    "Verif.Dep.C119_connector_false",
    "Verif.Dep.C119_feature_false",
    "Verif.Dep.C119_no_match",
    "Verif.Dep.C119_unknown_pattern",
    "Verif.Dep.C119_missing",
    "Verif.Dep.C119_numbers",
    "Verif.Dep.C119_description",
    "Verif.Dep.C119_connector"
   ],
   "note": "Numbers, patterns, nodes, descriptions and attributes are read as written; connectors are ignored, a feature not named by featureID silently becomes the whole pattern, and a macro matches nothing before its filter is set."
  },
  {
   "property": "C120",
   "status": "partial",
   "theorems": [
    "Verif.Dep.C120_partial",
    "Verif.Dep.C120_false_three",
    "Verif.Dep.C120_false_slash",
    "Verif.Dep.C120_false_plain"
   ],
   "note": "True for one or two named conditions without a slash inside; of three conditions one is lost, and conditions with a slash or without a name are refused."
  },
  {
   "property": "C121",
   "status": "partial",
   "theorems": [
    "Verif.Dep.C121_partial",
    "Verif.Dep.C121_false"
   ],
   "note": "Patterns are read, but have no number and so cannot be used by macros of an XML file; MacroGraph.read_csv always raises TypeError for a table that is not empty."
  },
  {
   "property": "C122",
   "status": "proved",
   "theorems": [
    "Verif.Assoc.C122_manhattan",
    "Verif.Assoc.C122_euclidean",
    "Verif.Assoc.C122_metric",
    "Verif.Assoc.C122_cosine",
    "Verif.Assoc.C122_similarity",
    "Verif.Assoc.C122_axis",
    "Verif.Assoc.C122_refused",
    "Verif.Assoc.C122_cosine_detour"
   ],
   "note": "For real numbers. The metric cos, which the code lists but the documentation does not, is refused by scikit-learn. The default, cosine distance, is not a metric."
  },
  {
   "property": "C123",
   "status": "partial",
   "theorems": [
    "Verif.Assoc.C123_partial",
    "Verif.Assoc.C123_defined_partial",
    "Verif.Assoc.C123_no_total",
    "Verif.Assoc.C123_one_row_or_column",
    "Verif.Assoc.C123_given",
    "Verif.Assoc.C123_ppmi_partial",
    "Verif.Assoc.C123_ppmi_one_column"
   ],
   "note": "False: without a total every call fails (TypeError), and arrays with one row or one column fail (IndexError); otherwise true."
  },
  {
   "property": "C124",
   "status": "partial",
   "theorems": [
    "Verif.Assoc.C124_entropy_partial",
    "Verif.Assoc.C124_entropy_actual",
    "Verif.Assoc.C124_entropy_false",
    "Verif.Assoc.C124_entropy_negative",
    "Verif.Assoc.C124_mi",
    "Verif.Assoc.C124_mi_zero",
    "Verif.Assoc.C124_pairwise"
   ],
   "note": "The entropy of a certain event is not 0 but about 1e-10; mutual information of pairs that do not occur raises; pairwise_association does not know llik."
  },
  {
   "property": "C125",
   "status": "partial",
   "theorems": [
    "Verif.Matrix.C125_sparse_partial",
    "Verif.Matrix.C125_dense",
    "Verif.Matrix.C125_cells",
    "Verif.Matrix.C125_refused",
    "Verif.Matrix.C125_shape_counterexample"
   ],
   "note": "The entries are the right ones. The shape depends on storage and data: a column of a sparse matrix has two dimensions, and a slice that selects one row of a sparse matrix loses one."
  },
  {
   "property": "C126",
   "status": "partial",
   "theorems": [
    "Verif.Matrix.C126_table_partial",
    "Verif.Matrix.C126_nan_is_zero",
    "Verif.Matrix.C126_counterexample",
    "Verif.Matrix.C126_negative"
   ],
   "note": "Entries that a sparse matrix does not store are shown as NaN though they are 0; negative numbers may raise IndexError. The layout by tabulate is not modelled."
  },
  {
   "property": "C127",
   "status": "partial",
   "theorems": [
    "Verif.Matrix.C127_partial",
    "Verif.Matrix.C127_nonzero_partial",
    "Verif.Matrix.C127_empty",
    "Verif.Matrix.C127_counterexample"
   ],
   "note": "The percentage counts stored entries, so zeros that are stored count, and arrays are always at 100%; a matrix without entries raises ZeroDivisionError."
  },
  {
   "property": "C128",
   "status": "partial",
   "theorems": [
    "Verif.Dep.C128_partial",
    "Verif.Dep.C128_distinct_partial",
    "Verif.Dep.C128_unknown_head",
    "Verif.Dep.C128_not_a_number",
    "Verif.Dep.C128_counterexample"
   ],
   "note": "False: words with the same lemma and part of speech become one node. The theorems say exactly which graph results, and that the claim holds if all names differ, none is root and no two words are each other's heads."
  },
  {
   "property": "C129",
   "status": "partial",
   "theorems": [
    "Verif.Dep.C129_graph_partial",
    "Verif.Dep.C129_graph_counterexample",
    "Verif.Dep.C129_target_none",
    "Verif.Dep.C129_target_fails"
   ],
   "note": "False: a template with an edge raises TypeError as soon as a node fits its start, and match_target_feature never records a match. True for templates without edges."
  },
  {
   "property": "C130",
   "status": "partial",
   "theorems": [
    "Verif.Matrix.C130_sparse",
    "Verif.Matrix.C130_sparse_partial",
    "Verif.Matrix.C130_dense_partial",
    "Verif.Matrix.C130_refused",
    "Verif.Matrix.C130_counterexample",
    "Verif.Matrix.C130_dense_counterexample"
   ],
   "note": "A sparse matrix marks only entries it stores, so zeros below 5 are not marked; true if 0 does not satisfy the comparison. Arrays that look symmetric, and >= 0 and <= 0 of sparse matrices, are not implemented; marks that look symmetric under different names raise ValueError."
  },
  {
   "property": "C131",
   "status": "partial",
   "theorems": [
    "Verif.Matrix.C131_names_ignored",
    "Verif.Matrix.C131_sparse_partial",
    "Verif.Matrix.C131_stored_zero",
    "Verif.Matrix.C131_dense_partial",
    "Verif.Matrix.C131_mixed_partial",
    "Verif.Matrix.C131_matrix_product",
    "Verif.Matrix.C131_refused",
    "Verif.Matrix.C131_counterexample",
    "Verif.Matrix.C131_product_counterexample"
   ],
   "note": "Names are ignored; a stored zero in the first matrix leaves the entries unmultiplied; an array times a sparse matrix is the matrix product. True for equal names and two sparse matrices without stored zeros, or two arrays. Broadcasting of sparse matrices is not modelled."
  },
  {
   "property": "C132",
   "status": "partial",
   "theorems": [
    "Verif.Matrix.C132_partial",
    "Verif.Matrix.C132_no_rename",
    "Verif.Matrix.C132_reference",
    "Verif.Matrix.C132_counterexample"
   ],
   "note": "The tables are kept once computed, so renaming items in place after a look-up is not noticed; true for every program that does not do that."
  },
  {
   "property": "C133",
   "status": "proved",
   "theorems": [
    "Verif.Vocab.C133_table",
    "Verif.Vocab.C133_round_trip",
    "Verif.Vocab.C133_views",
    "Verif.Vocab.C133_sources"
   ],
   "note": "Tables are two optional columns; missing values and other columns are not modelled."
  },
  {
   "property": "C134",
   "status": "proved",
   "theorems": [
    "Verif.Vocab.C134_small",
    "Verif.Vocab.C134_large"
   ],
   "note": "What is printed; the layout of the text is not modelled."
  },
  {
   "property": "C135",
   "status": "proved",
   "theorems": [
    "Verif.Vocab.C135_coverage",
    "Verif.Vocab.C135_fewer"
   ],
   "note": ""
  },
  {
   "property": "C136",
   "status": "proved",
   "theorems": [
    "Verif.Vocab.C136_steps",
    "Verif.Vocab.C136_totals",
    "Verif.Vocab.C136_all"
   ],
   "note": "Negative bounds are covered by C18, not by this law."
  },
  {
   "property": "C137",
   "status": "proved",
   "theorems": [
    "Verif.Matrix.C137_steps",
    "Verif.Matrix.C137_rows_cols"
   ],
   "note": ""
  },
  {
   "property": "C138",
   "status": "proved",
   "theorems": [
    "Verif.Matrix.C138_select",
    "Verif.Matrix.C138_threshold",
    "Verif.Matrix.C138_merge"
   ],
   "note": ""
  },
  {
   "property": "C139",
   "status": "proved",
   "theorems": [
    "Verif.Matrix.C139_commutative",
    "Verif.Matrix.C139_associative",
    "Verif.Matrix.C139_total"
   ],
   "note": ""
  },
  {
   "property": "C140",
   "status": "proved",
   "theorems": [
    "Verif.Matrix.C140_steps",
    "Verif.Matrix.C140_monotone"
   ],
   "note": ""
  },
  {
   "property": "C141",
   "status": "proved",
   "theorems": [
    "Verif.Cooc.C141_matrix",
    "Verif.Cooc.C141_freq"
   ],
   "note": "No worker of build_col_freq dies (see C04); workers of build_item_freq may."
  },
  {
   "property": "C142",
   "status": "partial",
   "theorems": [
    "Verif.Cooc.C142_partial",
    "Verif.Cooc.C142_left",
    "Verif.Cooc.C142_counterexample"
   ],
   "note": "False: a wider right span may make a segment a short one, whose last line is no target. True if the right span stays the same, and for files without a segment longer than the old (or 1) and not longer than the new right span."
  },
  {
   "property": "C143",
   "status": "partial",
   "theorems": [
    "Verif.Cooc.C143_partial",
    "Verif.Cooc.C143_never_more",
    "Verif.Cooc.C143_counterexample"
   ],
   "note": "False for segments of 2..R lines, whose last line is a token but no target; true for other files; the matrix never has more."
  },
  {
   "property": "C144",
   "status": "partial",
   "theorems": [
    "Verif.Cooc.C144_file",
    "Verif.Flow.C144_rows_partial",
    "Verif.Flow.C144_counterexample"
   ],
   "note": "False with more workers than files (ValueError, see C05). Proved for runs in which every worker got a file, right span not 0 and tokens of different names; per file without these conditions whenever reading does not fail."
  },
  {
   "property": "C145",
   "status": "proved",
   "theorems": [
    "Verif.Assoc.C145_selection"
   ],
   "note": "Selections by lists of different names, for matrices stored in a compressed format, which are those the library builds."
  },
  {
   "property": "C146",
   "status": "proved",
   "theorems": [
    "Verif.Assoc.C146_transpose"
   ],
   "note": ""
  },
  {
   "property": "C147",
   "status": "proved",
   "theorems": [
    "Verif.Assoc.C147_ppmi",
    "Verif.Assoc.C147_zscore_dice",
    "Verif.Assoc.C147_deltap"
   ],
   "note": "Delta P needs marginal frequencies below the total."
  },
  {
   "property": "C148",
   "status": "proved",
   "theorems": [
    "Verif.Assoc.C148_invariant",
    "Verif.Assoc.C148_linear",
    "Verif.Assoc.C148_zscore"
   ],
   "note": ""
  },
  {
   "property": "C149",
   "status": "partial",
   "theorems": [
    "Verif.Assoc.C149_partial",
    "Verif.Assoc.C149_counterexample",
    "Verif.Assoc.C149_counterexample_size"
   ],
   "note": "False where the expected frequency or the quotient is exactly 1, because adjust_val replaces 1 by 1-1e-10; true otherwise."
  },
  {
   "property": "C150",
   "status": "partial",
   "theorems": [
    "Verif.Dep.Basic.C150_partial",
    "Verif.Dep.Basic.C150_agree",
    "Verif.Dep.Basic.C150_false_root",
    "Verif.Dep.Basic.C150_false_single",
    "Verif.Dep.Basic.C150_not_tree"
   ],
   "note": "Proved for trees with at least one edge whose root cannot match ROOT. False otherwise: KeyError at the artificial root, AssertionError for a template of one node, and sentences that are no trees are skipped."
  },
  {
   "property": "C151",
   "status": "partial",
   "theorems": [
    "Verif.Dep.Basic.C151_partial",
    "Verif.Dep.Basic.C151_false_middle",
    "Verif.Dep.Basic.C151_false_up"
   ],
   "note": "Proved for templates that are lines with the target at one end, in sentences where every step has labels. False with the target in the middle (nothing is found) and at words below the artificial root (KeyError)."
  },
  {
   "property": "C152",
   "status": "proved",
   "theorems": [
    "Verif.Dep.Basic.C152_read",
    "Verif.Dep.Basic.C152_worded",
    "Verif.Dep.Basic.C152_empty",
    "Verif.Dep.Basic.C152_not_a_number"
   ],
   "note": ""
  },
  {
   "property": "C153",
   "status": "proved",
   "theorems": [
    "Verif.Cooc.C153_bounds"
   ],
   "note": ""
  },
  {
   "property": "C154",
   "status": "proved",
   "theorems": [
    "Verif.Cooc.C154_order",
    "Verif.Cooc.C154_freq"
   ],
   "note": ""
  },
  {
   "property": "C155",
   "status": "proved",
   "theorems": [
    "Verif.Assoc.C155_local"
   ],
   "note": "Operation addition."
  },
  {
   "property": "C156",
   "status": "proved",
   "theorems": [
    "Verif.Assoc.C156_sum",
    "Verif.Assoc.C156_scale"
   ],
   "note": "Operation addition."
  },
  {
   "property": "C157",
   "status": "proved",
   "theorems": [
    "Verif.Assoc.C157_local",
    "Verif.Assoc.C157_selection"
   ],
   "note": ""
  },
  {
   "property": "C158",
   "status": "partial",
   "theorems": [
    "Verif.Matrix.Csv.C158_partial",
    "Verif.Matrix.Csv.C158_default",
    "Verif.Matrix.Csv.C158_nan",
    "Verif.Matrix.Csv.C158_nan_array",
    "Verif.Matrix.Csv.C158_noindex",
    "Verif.Matrix.Csv.C158_false"
   ],
   "note": "False with the default arguments: the row names become a column and the rows are numbered (or a TypeError), and entries that are not stored may come back as nan. True with index_col=0 for arrays, or where pandas fills with 0."
  },
  {
   "property": "C159",
   "status": "partial",
   "theorems": [
    "Verif.Dep.Manager.C159_partial",
    "Verif.Dep.Manager.C159_lost",
    "Verif.Dep.Manager.C159_false",
    "Verif.Dep.Manager.C159_file"
   ],
   "note": "False for lines with an odd number of colons: the last field is lost."
  },
  {
   "property": "C160",
   "status": "partial",
   "theorems": [
    "Verif.Dep.Manager.C160_nothing",
    "Verif.Dep.Manager.C160_partial",
    "Verif.Dep.Manager.C160_false"
   ],
   "note": "False for every corpus in which something should be found: the function and the method called do not exist and the exceptions are only logged."
  },
  {
   "property": "C161",
   "status": "proved",
   "theorems": [
    "Verif.Dep.Manager.C161_merge",
    "Verif.Dep.Manager.C161_refused"
   ],
   "note": ""
  },
  {
   "property": "C162",
   "status": "proved",
   "theorems": [
    "Verif.Setup.Save.C162_files",
    "Verif.Setup.Save.C162_main"
   ],
   "note": "The documentation says that the limit is in bytes; the code, and this theorem, count numbers."
  },
  {
   "property": "C163",
   "status": "proved",
   "theorems": [
    "Verif.Setup.Save.C163_missing"
   ],
   "note": ""
  },
  {
   "property": "C164",
   "status": "partial",
   "theorems": [
    "Verif.Dep.Threads.C164_each_once_partial",
    "Verif.Dep.Threads.C164_complete_partial",
    "Verif.Dep.Threads.C164_real",
    "Verif.Dep.Threads.C164_real_end",
    "Verif.Dep.Threads.C164_false"
   ],
   "note": "False: process does not wait for its threads, and processing a file is a NameError. Proved for every interleaving: files are handed out in order, each entry once; runs are finite; if processing never fails the threads cannot stop before all files are done; as the module is, no file is processed, one file per worker is tried, and the producer waits for ever if there are more files than workers and queue can take."
  },
  {
   "property": "C165",
   "status": "proved",
   "theorems": [
    "Verif.Flow.C165_sound"
   ],
   "note": "For a right span other than 0, distinct names of occurrences, and row names kept in some order; completeness without dying workers is C111."
  },
  {
   "property": "C166",
   "status": "proved",
   "theorems": [
    "Verif.Dep.C166_malformed",
    "Verif.Dep.C166_unnamed"
   ],
   "note": "In a worker process the exception ends the worker (C01, C06 say what happens then). Lines that the line machine does not match are no word lines and are skipped."
  },
  {
   "property": "C167",
   "status": "proved",
   "theorems": [
    "Verif.Vocab.Json.C167_json"
   ],
   "note": "Integer frequencies. The encoding is the same for both: `save` takes that of the vocabulary by default, `load` takes utf-8. The JSON writer and reader are modelled, the codec is a parameter."
  },
  {
   "property": "C168",
   "status": "partial",
   "theorems": [
    "Verif.Vocab.Json.C168_partial",
    "Verif.Vocab.Json.C168_false_plain"
   ],
   "note": "Proved for the default (JSON) format. False for the plain format: a file that lacks its last digit is loaded with another frequency."
  },
  {
   "property": "C169",
   "status": "partial",
   "theorems": [
    "Verif.Cooc.C169_partial",
    "Verif.Cooc.C169_false_one_processor"
   ],
   "note": "Proved for machines with at least two processors and runs without worker deaths. False on one processor: no worker is started and the call gives nothing, without an error."
  },
  {
   "property": "C170",
   "status": "proved",
   "theorems": [
    "Verif.Cbc.C170_selection",
    "Verif.Cbc.C170_pairs",
    "Verif.Cbc.C170_returns",
    "Verif.Cbc.greedy_unique"
   ],
   "note": "The cosine and the vector of a cluster are parameters (C78 has the vector). The function is not called by the rest of the library."
  },
  {
   "property": "C171",
   "status": "proved",
   "theorems": [
    "Verif.Cbc.C171_clusters",
    "Verif.Cbc.C171_index"
   ],
   "note": "For highest_score=False, as the library calls it. The labels of SciPy and the square root are parameters."
  },
  {
   "property": "C172",
   "status": "proved",
   "theorems": [
    "Verif.Vocab.Json.C172_reader",
    "Verif.Vocab.Json.C172_empty",
    "Verif.Vocab.Json.C172_refused",
    "Verif.Vocab.Json.C172_only"
   ],
   "note": "The json module of Python is modelled for objects of integers; surrogate escapes are left out."
  },
  {
   "property": "C173",
   "status": "proved",
   "theorems": [
    "Verif.Cooc.C173_matrix",
    "Verif.Cooc.C173_freq"
   ],
   "note": "The two vocabularies of each call must ask for the same lines (SameRequest); empty vocabularies do."
  },
  {
   "property": "C174",
   "status": "partial",
   "theorems": [
    "Verif.Cooc.C174_partial",
    "Verif.Cooc.C174_false"
   ],
   "note": "False for segments of 2 to max(left, right) lines, whose last line is no target if the segment is not longer than the right span; holds for all other files."
  },
  {
   "property": "C175",
   "status": "partial",
   "theorems": [
    "Verif.Vocab.Files.C175_partial",
    "Verif.Vocab.Files.C175_default",
    "Verif.Vocab.Files.C175_ascii",
    "Verif.Vocab.Files.C175_load",
    "Verif.Vocab.Files.C175_false",
    "Verif.Vocab.Files.C175_false_silent",
    "Verif.Vocab.Files.utf8_faithful",
    "Verif.Vocab.Files.utf8_strict"
   ],
   "note": "False for vocabularies whose encoding is not UTF-8: save uses the encoding of the vocabulary, load UTF-8. Holds for UTF-8, for ASCII items, and if both are given the same encoding. Stateful encodings and byte order marks are not modelled."
  },
  {
   "property": "C176",
   "status": "partial",
   "theorems": [
    "Verif.Vocab.Files.C176_partial",
    "Verif.Vocab.Files.C176_never_wrong",
    "Verif.Vocab.Files.C176_false"
   ],
   "note": "False: the file is opened for writing before the encoding is looked up and the text encoded. The exact outcome of every case is proved, and that a JSON file that was not written completely is never loaded as another vocabulary."
  },
  {
   "property": "C177",
   "status": "partial",
   "theorems": [
    "Verif.Vocab.Files.C177_partial",
    "Verif.Vocab.Files.C177_false"
   ],
   "note": "False for JSON files read as plain ones, which always give an empty vocabulary; true for plain files read as JSON."
  },
  {
   "property": "C178",
   "status": "partial",
   "theorems": [
    "Verif.Matrix.C178_partial",
    "Verif.Matrix.C178_rows",
    "Verif.Matrix.C178_cols",
    "Verif.Matrix.C178_when",
    "Verif.Matrix.C178_false"
   ],
   "note": "False: formats other than coordinate raise AttributeError, rows of stored zeros stay, and the method of a matrix with names answers None. The exact outcome of every call is proved."
  },
  {
   "property": "C179",
   "status": "partial",
   "theorems": [
    "Verif.Matrix.C179_partial",
    "Verif.Matrix.C179_ties",
    "Verif.Matrix.C179_order",
    "Verif.Matrix.C179_mirror",
    "Verif.Matrix.C179_nearest",
    "Verif.Matrix.C179_false"
   ],
   "note": "False for items of equal similarity, which get different ranks. Proved for all others; with ties the ranks of a group of equally similar items follow directly on the number of items before it. The sorting routines of NumPy are parameters with their documented contract."
  },
  {
   "property": "C180",
   "status": "partial",
   "theorems": [
    "Verif.Dep.C180_files_partial",
    "Verif.Dep.C180_patterns_partial",
    "Verif.Dep.C180_targets_partial",
    "Verif.Dep.C180_empty",
    "Verif.Dep.C180_false"
   ],
   "note": "False only because a part without matches raises ValueError instead of giving a matrix; if the three matrices exist, the entries add up, for fresh handlers and files that raise no exception."
  },
  {
   "property": "C181",
   "status": "proved",
   "theorems": [
    "Verif.Regex.C181_columns",
    "Verif.Regex.C181_kept",
    "Verif.Regex.C181_groups"
   ],
   "note": "The expressions are compiled and run by a model of the fragment of re that they need; for all Unicode tables."
  },
  {
   "property": "C182",
   "status": "partial",
   "theorems": [
    "Verif.Regex.C182_partial",
    "Verif.Regex.C182_shipped",
    "Verif.Regex.C182_counts",
    "Verif.Regex.C182_ends",
    "Verif.Regex.C182_false_break",
    "Verif.Regex.C182_false_shift"
   ],
   "note": "False for lines with line boundaries of Unicode other than the newline (U+2028, U+0085, form feed ...), and for empty first columns, whose tab is stripped; for other lines proved, with the shipped settings, up to the frequencies."
  },
  {
   "property": "C183",
   "status": "partial",
   "theorems": [
    "Verif.Regex.C183_anchored_partial",
    "Verif.Regex.C183_text",
    "Verif.Regex.C183_false"
   ],
   "note": "False: re.match finds the text at the beginning of longer lines, too; exact outcome in C183_text; with ^...$ as claimed."
  },
  {
   "property": "C184",
   "status": "partial",
   "theorems": [
    "Verif.Regex.C184_anchored_partial",
    "Verif.Regex.C184_prefix",
    "Verif.Regex.C184_false"
   ],
   "note": "False: re.match finds the word at the beginning of longer relations (nsubj, nsubjpass); exact outcome in C184_prefix; with $ as claimed."
  },
  {
   "property": "C185",
   "status": "partial",
   "theorems": [
    "Verif.Regex.C185_partial",
    "Verif.Regex.C185_word",
    "Verif.Regex.C185_dot",
    "Verif.Regex.C185_prefix",
    "Verif.Regex.C185_class",
    "Verif.Regex.C185_escapes",
    "Verif.Regex.C185_false"
   ],
   "note": "False for (\\w+), which stops at the first hyphen, so that mother-in-law and mother are one target; exact outcome for (\\w+), (.+) and (word)\\w*."
  },
  {
   "property": "C186",
   "status": "partial",
   "theorems": [
    "Verif.Regex.C186_partial",
    "Verif.Regex.C186_documented",
    "Verif.Regex.C186_false"
   ],
   "note": "False: plain text selects all items that begin with it, and items with special characters need not select themselves; with ^...$ as claimed for plain text; the documented pattern exactly."
  },
  {
   "property": "C187",
   "status": "partial",
   "theorems": [
    "Verif.Regex.C187_partial",
    "Verif.Regex.C187_false"
   ],
   "note": "False: a line with an empty column is no word line; the word is left out without an exception. Proved for lines whose columns are not empty, in sentences with at least one word and different word numbers, up to the graph of the sentence."
  },
  {
   "property": "C188",
   "status": "partial",
   "theorems": [
    "Verif.Regex.C188_exact",
    "Verif.Regex.C188_partial",
    "Verif.Regex.C188_false"
   ],
   "note": "False: in a section of 2 to R items (R the right span) the last item is never a target (as C10_false). Proved from the text for all files without such sections; C188_exact gives the count for all files."
  },
  {
   "property": "C189",
   "status": "partial",
   "theorems": [
    "Verif.Regex.C189_partial",
    "Verif.Regex.C189_false"
   ],
   "note": "False for right span 0 with an empty section: IndexError, which every file that ends with a boundary line raises. Proved from the text otherwise, and that these are the only failures."
  },
  {
   "property": "C190",
   "status": "partial",
   "theorems": [
    "Verif.Cooc.C190_exact",
    "Verif.Cooc.C190_partial",
    "Verif.Cooc.C190_false"
   ],
   "note": "False for segments of 2 to R lines, whose last line is no target; for matrices of one row sum raises (C53). Exact number for all files in C190_exact."
  },
  {
   "property": "C191",
   "status": "partial",
   "theorems": [
    "Verif.Cooc.C191_exact",
    "Verif.Cooc.C191_partial",
    "Verif.Cooc.C191_single",
    "Verif.Cooc.C191_false"
   ],
   "note": "False where the expected frequency is exactly 1 (the weight is then off by about 1e-10, since the code adds a small number there), for matrices of one row or column (TypeError) and for segments of 2 to R lines; exact weights from the exact counts in C191_exact."
  },
  {
   "property": "C192",
   "status": "partial",
   "theorems": [
    "Verif.Flow.C192_partial"
   ],
   "note": "Proved for all occurrences. Not covered, as false: workers that get no file (C05_false), right span 0 (C11_false); occurrences with equal names; weights that sum to 0 (C62_signed)."
  },
  {
   "property": "C193",
   "status": "partial",
   "theorems": [
    "Verif.Regex.C193_frequency",
    "Verif.Regex.C193_exact",
    "Verif.Regex.C193_partial",
    "Verif.Regex.C193_false"
   ],
   "note": "Frequencies as stated. Co-occurrences are false for sections of 2 to R items, whose last item is no target; exact counts in C193_exact."
  },
  {
   "property": "C194",
   "status": "partial",
   "theorems": [
    "Verif.Dep.C194_partial",
    "Verif.Regex.C194_text",
    "Verif.Regex.C195_false"
   ],
   "note": "Proved for sentences whose words hang together from one number that is not a word (an exact condition for networkx is_tree: C69_tree_exact); other sentences are passed over silently, for which the claim is false (C195_false). Columns of the conditions must be node and edge columns of the settings."
  },
  {
   "property": "C195",
   "status": "partial",
   "theorems": [
    "Verif.Regex.C195_partial",
    "Verif.Regex.C195_false"
   ],
   "note": "Counts only the sentences that hang together; false otherwise (C195_false: a sentence with a cycle gives ValueError or is not counted)."
  },
  {
   "property": "C196",
   "status": "partial",
   "theorems": [
    "Verif.Cbc.C196_partial",
    "Verif.Cbc.C196_no_association",
    "Verif.Cbc.C196_arrays",
    "Verif.Cbc.C196_no_distances",
    "Verif.Cbc.C196_minsize"
   ],
   "note": "True when all three matrices are given as named matrices. False otherwise: arrays, left out distances and minsize with a word threshold make cluster() return one empty round without an error; left out association measures are a TypeError or IndexError."
  },
  {
   "property": "C197",
   "status": "partial",
   "theorems": [
    "Verif.Regex.C197_partial",
    "Verif.Regex.C197_false"
   ],
   "note": "False for right span 0 with an empty section: IndexError (C197_false). Proved from the text otherwise, and that these are the only failures."
  },
  {
   "property": "C198",
   "status": "partial",
   "theorems": [
    "Verif.Regex.C198_partial",
    "Verif.Regex.C198_frequency",
    "Verif.Regex.C198_exact",
    "Verif.Regex.returns_some",
    "Verif.Regex.returnsFreq_some",
    "Verif.Regex.C198_false"
   ],
   "note": "False for sections of 2 to R items (C198_false), expected frequencies of 1 (C191_false) and one row or column (C191_single). C198_exact says for all corpora what is counted and weighted; the frequencies are as claimed."
  },
  {
   "property": "C199",
   "status": "partial",
   "theorems": [
    "Verif.Regex.C199_partial",
    "Verif.Regex.C199_exact",
    "Verif.Regex.C199_vectors",
    "Verif.Regex.tokens_nodup",
    "Verif.Regex.C199_false"
   ],
   "note": "False for vocabularies that leave out what stands between: the entry is the rank among the kept collocates (C199_false). C199_exact says for all vocabularies what the matrix has. Right span 0 and workers without files are C197_false and C05_false."
  },
  {
   "property": "C200",
   "status": "partial",
   "theorems": [
    "Verif.Items.C200_partial",
    "Verif.Items.C200_places",
    "Verif.Items.C200_none",
    "Verif.Items.C200_false"
   ],
   "note": "False for collocates that stand near several tokens: one member per place (C200_false, C200_places); TypeError for tokens made without collocates (C200_none)."
  },
  {
   "property": "C201",
   "status": "partial",
   "theorems": [
    "Verif.Items.Old.C201_partial",
    "Verif.Items.Old.C201_settings",
    "Verif.Items.Old.C201_agree",
    "Verif.Items.Old.C201_nomatch",
    "Verif.Items.Old.C201_false"
   ],
   "note": "False: token_line_machine, which should add file and line number to a line, raises TypeError on every line (C201_false) and a line that does not match is an AttributeError (C201_nomatch). Types and items agree (C201_agree)."
  },
  {
   "property": "C202",
   "status": "partial",
   "theorems": [
    "Verif.Items.Old.C202_partial",
    "Verif.Items.Old.C202_last",
    "Verif.Items.Old.C202_false"
   ],
   "note": "False for repeated parsing, which appends the lines again (C202_false); a line end at the end of the text gives an empty line (C202_last)."
  },
  {
   "property": "C203",
   "status": "partial",
   "theorems": [
    "Verif.Matrix.Meta.C203_partial",
    "Verif.Matrix.Meta.C203_false",
    "Verif.Matrix.Meta.C203_deep"
   ],
   "note": "False: keyword arguments are dropped and no derived or loaded matrix has an attribute that was set (C203_false); an attribute named deep makes selection a TypeError (C203_deep). Proved: attributes that are set are in meta_data, in copies and in the saved file."
  },
  {
   "property": "C204",
   "status": "partial",
   "theorems": [
    "Verif.Dep.C204_partial",
    "Verif.Dep.C204_distinct",
    "Verif.Regex.C204_text"
   ],
   "note": "Sentences that do not hang together are left out of the count, and templates need conditions on every node and edge and a node 1 (C37_false_unconstrained). C204_text starts from the text of the corpus."
  },
  {
   "property": "C205",
   "status": "partial",
   "theorems": [
    "Verif.Regex.C205_partial"
   ],
   "note": "For macro files as the documented layout has them; the connector of the file is not used (C119_connector_false). Sentences that do not hang together are left out."
  },
  {
   "property": "C206",
   "status": "partial",
   "theorems": [
    "Verif.Setup.Log.C206_partial",
    "Verif.Setup.Log.C206_lost",
    "Verif.Setup.Log.C206_outside"
   ],
   "note": "Holds until a handler is constructed; then the log file is deleted for good and warnings are lost (C206_lost). A log file elsewhere keeps all (C206_outside)."
  },
  {
   "property": "C207",
   "status": "partial",
   "theorems": [
    "Verif.Setup.Log.C207_partial",
    "Verif.Setup.Log.C207_false",
    "Verif.Setup.Log.C207_file",
    "Verif.Setup.Log.C207_misfit",
    "Verif.Setup.Log.C207_levels",
    "Verif.Setup.Log.C207_exception"
   ],
   "note": "False on the console, which shows the message without its arguments (C207_false); messages without arguments are shown (C207_partial); the log file has the arguments (C207_file)."
  },
  {
   "property": "C208",
   "status": "partial",
   "theorems": [
    "Verif.Setup.Log.C208_changed",
    "Verif.Setup.Log.C208_false",
    "Verif.Setup.Log.C208_none",
    "Verif.Setup.Log.C208_unopened",
    "Verif.Setup.Log.C208_silent"
   ],
   "note": "Holds for the logger as the package sets it up (C208_changed). False with a handler of the user, which is removed (C208_false), and if the file cannot be opened: the log is lost, and the next change removes the console (C208_unopened, C208_silent)."
  },
  {
   "property": "C209",
   "status": "partial",
   "theorems": [
    "Verif.Flow.C209_exact",
    "Verif.Flow.C209_false",
    "Verif.Flow.C209_tokens",
    "Verif.Flow.C209_number"
   ],
   "note": "False: the matrix of a call has the rows of the files of all calls so far (C209_exact, C209_false), and every call multiplies the tokens in the type nodes by the number of workers (C209_tokens, C209_number). For runs in which every worker gets a file and right spans above 0."
  },
  {
   "property": "C210",
   "status": "partial",
   "theorems": [
    "Verif.Cooc.C210_partial",
    "Verif.Cooc.C210_exact",
    "Verif.Cooc.C210_false",
    "Verif.Cooc.C210_new"
   ],
   "note": "False: a call without a vocabulary uses the last one that was given (C210_exact, C210_false). True for calls that give both (C210_partial) and for new handlers (C210_new)."
  },
  {
   "property": "C211",
   "status": "partial",
   "theorems": [
    "Verif.Flow.C211_partial",
    "Verif.Flow.C211_exact",
    "Verif.Flow.C211_error",
    "Verif.Flow.C211_false"
   ],
   "note": "False: occurrences with one identifier share a row, that of the last token in the order of the results (C211_exact), which the schedule decides (C211_false); a matrix has the identifiers as rows, each right for one of its occurrences (C211_partial), or ValueError is raised (C211_error)."
  },
  {
   "property": "C212",
   "status": "partial",
   "theorems": [
    "Verif.Dep.C212_partial",
    "Verif.Dep.C212_exact",
    "Verif.Dep.C212_sum",
    "Verif.Dep.C212_exists",
    "Verif.Dep.C212_false"
   ],
   "note": "The sums hold always (C212_sum), and the two modes return a matrix together (C212_exists). False in that files of one name share their rows (C212_exact, C212_false); C212_partial is the claim for files of different names. For names without slashes, jobs without exceptions, and templates with file and line at the end of the target format."
  },
  {
   "property": "C213",
   "status": "proved",
   "theorems": [
    "Verif.Dep.C213_order"
   ],
   "note": "For corpora of sentences that the line format reads and templates that are trees whose target and features name attributes of their conditions; is_tree as networkx documents it. The two calls end alike: the same matrix, or an error in both."
  },
  {
   "property": "C214",
   "status": "proved",
   "theorems": [
    "Verif.Dep.C214_stricter"
   ],
   "note": "If the call with the stricter templates returns a matrix, the other returns one as well, and the entries compare. Same hypotheses as C213."
  },
  {
   "property": "C215",
   "status": "partial",
   "theorems": [
    "Verif.Flow.C215_partial",
    "Verif.Regex.C215_text",
    "Verif.Flow.C215_false"
   ],
   "note": "False for tokens whose vector is zero: their cosine distance is 1, even from themselves. Everything else proved, from the settings and the text of the files in C215_text. As in C192: right span not 0, a file for every worker, names of occurrences distinct."
  },
  {
   "property": "C216",
   "status": "proved",
   "theorems": [
    "Verif.Cooc.C216_counts",
    "Verif.Cooc.C216_freq"
   ],
   "note": "For calls that return; the formats may differ in everything. Rows and columns come in the same order."
  },
  {
   "property": "C217",
   "status": "proved",
   "theorems": [
    "Verif.Cooc.C217_counts",
    "Verif.Cooc.C217_freq",
    "Verif.Cooc.C217_scores"
   ],
   "note": "For calls that return; scores over the reals. pmi and ppmi are not exactly the same, as the code moves values of exactly 1 (C149)."
  },
  {
   "property": "C218",
   "status": "proved",
   "theorems": [
    "Verif.Cooc.C218_counts",
    "Verif.Cooc.C218_freq",
    "Verif.Cooc.C218_scores"
   ],
   "note": "For calls that return; the vocabularies are renamed as well."
  },
  {
   "property": "C219",
   "status": "proved",
   "theorems": [
    "Verif.Assoc.C219_cosine",
    "Verif.Assoc.C219_distance",
    "Verif.Cooc.C219_corpus"
   ],
   "note": "Values are real numbers; with floats, the results agree up to rounding."
  },
  {
   "property": "C220",
   "status": "partial",
   "theorems": [
    "Verif.Cooc.C220_exact",
    "Verif.Cooc.C220_partial",
    "Verif.Cooc.C220_never_more",
    "Verif.Cooc.C220_false"
   ],
   "note": "False for segments of 2 to R lines, whose last line is no target with right span R but is one with right span 0. The difference is given exactly in C220_exact; equality for files without such segments, and never more."
  },
  {
   "property": "C221",
   "status": "proved",
   "theorems": [
    "Verif.Flow.C221_row"
   ],
   "note": "For names of tokens that are unique (C92); right span 0 is excluded, as nothing is found then (C11)."
  },
  {
   "property": "C222",
   "status": "proved",
   "theorems": [
    "Verif.Matrix.C222_rows",
    "Verif.Matrix.C222_cols",
    "Verif.Matrix.C222_merge"
   ],
   "note": "Columns concatenated from csr matrices are stored as coo, whose entries cannot be read by name (C24)."
  },
  {
   "property": "C223",
   "status": "partial",
   "theorems": [
    "Verif.Cooc.C223_exact",
    "Verif.Cooc.C223_partial",
    "Verif.Cooc.C223_words",
    "Verif.Cooc.C223_false"
   ],
   "note": "False for segments of 2 to R lines, whose last line is no target; the exact sum for all files is in C223_exact, and C223_words holds for all files."
  },
  {
   "property": "C224",
   "status": "partial",
   "theorems": [
    "Verif.Cooc.C224_exact",
    "Verif.Cooc.C224_partial",
    "Verif.Cooc.C224_false"
   ],
   "note": "False for segments of 2 to R lines; for matrices of one column sum raises (C53). The exact sum for all files is in C224_exact."
  },
  {
   "property": "C225",
   "status": "partial",
   "theorems": [
    "Verif.Assoc.C225_partial",
    "Verif.Assoc.C225_table_partial",
    "Verif.Assoc.C225_false",
    "Verif.Assoc.C225_false_exclusive",
    "Verif.Assoc.C225_false_one"
   ],
   "note": "False for logratio if the collocate occurs with the target only (negative although the attraction is total) and for pmi and ppmi if the expected frequency is exactly 1; true otherwise."
  },
  {
   "property": "C226",
   "status": "proved",
   "theorems": [
    "Verif.Assoc.C226_chisq",
    "Verif.Assoc.C226_zscore",
    "Verif.Assoc.C226_dice"
   ],
   "note": ""
  },
  {
   "property": "C227",
   "status": "proved",
   "theorems": [
    "Verif.Assoc.C227_nonneg",
    "Verif.Assoc.C227_one"
   ],
   "note": ""
  },
  {
   "property": "C228",
   "status": "proved",
   "theorems": [
    "Verif.Assoc.C228_unit",
    "Verif.Assoc.C228_order",
    "Verif.Assoc.C228_tokens"
   ],
   "note": ""
  },
  {
   "property": "C229",
   "status": "proved",
   "theorems": [
    "Verif.Assoc.C229_order",
    "Verif.Assoc.C229_sums",
    "Verif.Assoc.C229_cosine",
    "Verif.Assoc.C229_distance"
   ],
   "note": ""
  },
  {
   "property": "C230",
   "status": "partial",
   "theorems": [
    "Verif.Assoc.C230_partial",
    "Verif.Assoc.C230_steps",
    "Verif.Assoc.C230_false",
    "Verif.Assoc.C230_false_order"
   ],
   "note": "False: dropping columns takes values from rows that were kept, so a row can end with n values or fewer, and the two orders differ. True for what is dropped last, for the rows if no column was dropped, and for steps along one axis."
  },
  {
   "property": "C231",
   "status": "partial",
   "theorems": [
    "Verif.Assoc.C231_partial",
    "Verif.Assoc.C231_false"
   ],
   "note": "False if an expected frequency is exactly 1, which calc_pmi replaces by a number below 1; true otherwise."
  },
  {
   "property": "C232",
   "status": "partial",
   "theorems": [
    "Verif.Assoc.C232_partial",
    "Verif.Assoc.C232_disjoint",
    "Verif.Assoc.C232_false"
   ],
   "note": "False if a frequency expected to be exactly 1 is 1: the words do not attract the collocate but are counted as similar. True if no expected frequency is exactly 1; words without a common collocate have similarity 0 with every measure."
  },
  {
   "property": "C233",
   "status": "proved",
   "theorems": [
    "Verif.Assoc.C233_distances",
    "Verif.Assoc.C233_cosine",
    "Verif.Assoc.C233_select"
   ],
   "note": ""
  },
  {
   "property": "C234",
   "status": "partial",
   "theorems": [
    "Verif.Cooc.C234_partial_blocks",
    "Verif.Cooc.C234_partial_counts",
    "Verif.Cooc.C234_partial_one_worker",
    "Verif.Cooc.C234_false_counts",
    "Verif.Cooc.C234_false_tokens"
   ],
   "note": "False: nothing is raised. Frequency lists and dependency matrices never return; build_col_freq returns the counts of some of the files without fault (None if as many files raise as there are workers, so with one worker and one such file); retrieve_tokens may return with the tokens of files without fault missing."
  },
  {
   "property": "C235",
   "status": "partial",
   "theorems": [
    "Verif.Dep.C235_targets",
    "Verif.Dep.C235_used_templates_partial",
    "Verif.Dep.C235_nothing",
    "Verif.Dep.C235_false_file"
   ],
   "note": "Proved for macros given by the caller, under the conditions of C70; false for files: every table of templates is a TypeError."
  },
  {
   "property": "C236",
   "status": "partial",
   "theorems": [
    "Verif.Cooc.C236_counts_partial",
    "Verif.Cooc.C236_shares",
    "Verif.Cooc.C236_elsewhere_partial",
    "Verif.Cooc.C236_false_clean"
   ],
   "note": "Proved while no handler is constructed that empties the common temporary directory between writing and reading; false otherwise: the parent fails with ValueError."
  },
  {
   "property": "C237",
   "status": "partial",
   "theorems": [
    "Verif.Cooc.C237_partial",
    "Verif.Cooc.C237_exact",
    "Verif.Cooc.C237_upper",
    "Verif.Cooc.C237_tokens",
    "Verif.Cooc.C237_false"
   ],
   "note": "The token part is proved. The counts are exact if every sentence of two or more lines has exactly R + 1 lines and never too high; false otherwise: the last line of a shorter sentence is no target."
  },
  {
   "property": "C238",
   "status": "partial",
   "theorems": [
    "Verif.Matrix.Mem.C238_partial",
    "Verif.Matrix.Mem.C238_selection",
    "Verif.Matrix.Mem.C238_dropped",
    "Verif.Matrix.Mem.C238_false"
   ],
   "note": "Proved by refinement of a memory model to values for all programs without the calls named here; false for submatrix() without names on sparse matrices, which shares the array, and for drop_empty() on sparse matrices without empty rows, which returns the matrix itself."
  },
  {
   "property": "C239",
   "status": "partial",
   "theorems": [
    "Verif.Vocab.Mem.C239_partial",
    "Verif.Vocab.Mem.C239_same",
    "Verif.Vocab.Mem.C239_false"
   ],
   "note": "Proved by refinement of a memory model to values for all programs without v.freq and v[()]; these two return the vocabulary itself, and are proved to stay the same as it at all later times."
  },
  {
   "property": "C240",
   "status": "proved",
   "theorems": [
    "Verif.Cooc.C240_exact",
    "Verif.Cooc.C240_others",
    "Verif.Cooc.C240_bound"
   ],
   "note": "For all corpora and all runs of the workers that return; the contribution of a word is defined on the lines of the text."
  },
  {
   "property": "C241",
   "status": "proved",
   "theorems": [
    "Verif.Assoc.C241_matrix",
    "Verif.Assoc.C241_chisq",
    "Verif.Assoc.C241_zscore",
    "Verif.Assoc.C241_lik",
    "Verif.Assoc.C241_pmi",
    "Verif.Assoc.C241_pmi_reached"
   ],
   "note": "Over real numbers. The bound of PMI holds up to the slip 1.0000000002e-10 that comes from the constant the code adds, and exactly outside its two special cases (expected frequency 1; observed equals expected)."
  },
  {
   "property": "C242",
   "status": "partial",
   "theorems": [
    "Verif.Cooc.C242_exact_partial",
    "Verif.Cooc.C242_others_partial",
    "Verif.Cooc.C242_ends_partial",
    "Verif.Cooc.C242_false"
   ],
   "note": "For all corpora and all runs of the workers that return, if the sentence keeps more words than the right span. C242_false: in shorter sentences the last word loses its contexts, so that counts of other pairs can go down."
  },
  {
   "property": "C243",
   "status": "proved",
   "theorems": [
    "Verif.Assoc.C243_cosine",
    "Verif.Assoc.C243_euclidean",
    "Verif.Assoc.C243_tokens"
   ],
   "note": "Over the real numbers; the sorting routine is any that sorts."
  },
  {
   "property": "C244",
   "status": "proved",
   "theorems": [
    "Verif.Cooc.C244_exact",
    "Verif.Cooc.C244_long",
    "Verif.Cooc.C244_never_lower"
   ],
   "note": "For all corpora and all runs of the workers that return; the pairs over the border are defined on the lines of the text."
  },
  {
   "property": "C245",
   "status": "partial",
   "theorems": [
    "Verif.Cbc.C245_result",
    "Verif.Cbc.C245_others",
    "Verif.Cbc.C245_kept_partial",
    "Verif.Cbc.C245_never",
    "Verif.Cbc.C245_lost",
    "Verif.Cbc.C245_first",
    "Verif.Cbc.C245_false"
   ],
   "note": "The result does not depend on the files, and no other file changes. The results are kept if all rounds are used up and the residues can be written in latin1. C245_never: a run that ends because at most two residues are left or no committee is new keeps nothing. C245_false: the file of the residues breaks off at a word outside latin1. C245_lost: if the directory cannot be made, the results are lost. The JSON text is not modelled."
  },
  {
   "property": "C246",
   "status": "partial",
   "theorems": [
    "Verif.Setup.Save.C246_partial",
    "Verif.Setup.Save.C246_only",
    "Verif.Setup.Save.C246_stale",
    "Verif.Setup.Save.C246_lost",
    "Verif.Setup.Save.C246_false"
   ],
   "note": "True for objects that were never saved by name. Saving by name leaves the names of the separate files in the object, so that later C246_stale: large arrays are read from files next to the open file (old contents, or loading fails), and C246_lost: attributes once ignored come back as None. Objects that cannot be pickled are not modelled."
  },
  {
   "property": "C247",
   "status": "partial",
   "theorems": [
    "Verif.Cbc.C247_partial",
    "Verif.Cbc.C247_emptied",
    "Verif.Cbc.C247_false"
   ],
   "note": "True if no other run of the same minute does anything between the start and the end of the run; runs of other minutes may interleave in any way, and leftovers of earlier runs do no harm. False for runs of the same minute, which share one directory: C247_emptied (no clusters, no exception), C247_false (clusters found with the matrix of the other run, and clusters of its elements). Events are taken as atomic."
  },
  {
   "property": "C248",
   "status": "proved",
   "theorems": [
    "Verif.Assoc.C248_root",
    "Verif.Assoc.C248_third",
    "Verif.Assoc.C248_four",
    "Verif.Assoc.C248_limit"
   ],
   "note": "Also for rows of zeros. C248_limit: at a similarity of 1/sqrt(2) to the third item, nothing follows. Real numbers in place of floating-point numbers."
  },
  {
   "property": "C249",
   "status": "proved",
   "theorems": [
    "Verif.Assoc.C249_similar",
    "Verif.Assoc.C249_common"
   ],
   "note": "For tokens with at least one context that has a feature; the example has tokens without a common context. Real numbers in place of floating-point numbers."
  },
  {
   "property": "C250",
   "status": "proved",
   "theorems": [
    "Verif.Assoc.C250_mean",
    "Verif.Assoc.C250_refused",
    "Verif.Assoc.C250_all",
    "Verif.Assoc.C250_order",
    "Verif.Assoc.C250_least",
    "Verif.Assoc.C250_merge"
   ],
   "note": "Lists of Python integers; arrays, sets and lists of truth values are not modelled. Without rows the values are NaN (C250_all). Real numbers in place of floating-point numbers."
  },
  {
   "property": "C251",
   "status": "partial",
   "theorems": [
    "Verif.Cbc.C251_partial",
    "Verif.Cbc.C251_all",
    "Verif.Cbc.C251_replaced",
    "Verif.Cbc.C251_mixed",
    "Verif.Cbc.C251_false"
   ],
   "note": "True if no two of them end within the same minute (C251_all). Otherwise the later one replaces the results (C251_replaced), or, if its committees cannot be written, leaves a broken file next to the residues of the earlier one (C251_mixed)."
  },
  {
   "property": "C252",
   "status": "proved",
   "theorems": [
    "Verif.Assoc.C252_contexts",
    "Verif.Assoc.C252_above"
   ],
   "note": "For tokens with at least one context that has a feature. Real numbers in place of floating-point numbers."
  },
  {
   "property": "C253",
   "status": "proved",
   "theorems": [
    "Verif.Assoc.C253_same",
    "Verif.Assoc.C253_similar",
    "Verif.Assoc.C253_negative"
   ],
   "note": "For weight and second-order matrices in csr format with the same contexts. Real numbers in place of floating-point numbers."
  },
  {
   "property": "C254",
   "status": "proved",
   "theorems": [
    "Verif.Dep.C254_graph",
    "Verif.Dep.C254_stop"
   ],
   "note": "networkx.Graph is modelled by its nodes and labelled edges."
  },
  {
   "property": "C255",
   "status": "proved",
   "theorems": [
    "Verif.Dep.Basic.C255_marks",
    "Verif.Dep.Basic.C255_empty"
   ],
   "note": "Graph objects are cells of a heap; networkx copy() gives a new cell."
  },
  {
   "property": "C256",
   "status": "proved",
   "theorems": [
    "Verif.Assoc.C256_near",
    "Verif.Assoc.C256_length"
   ],
   "note": "The similarity to the centroid is stated as scalar product and lengths. Real numbers in place of floating-point numbers."
  },
  {
   "property": "C257",
   "status": "proved",
   "theorems": [
    "Verif.Assoc.C257_information",
    "Verif.Assoc.C257_sums"
   ],
   "note": "Real numbers in place of floating-point numbers; sparse matrices, as the code requires."
  },
  {
   "property": "C258",
   "status": "proved",
   "theorems": [
    "Verif.Assoc.C258_merge",
    "Verif.Assoc.C258_rows"
   ],
   "note": "Real numbers in place of floating-point numbers; sparse matrices, as the code requires."
  },
  {
   "property": "C259",
   "status": "proved",
   "theorems": [
    "Verif.Assoc.C259_bound"
   ],
   "note": "Real numbers in place of floating-point numbers; sparse matrices, as the code requires."
  },
  {
   "property": "C260",
   "status": "partial",
   "theorems": [
    "Verif.Setup.C260_partial",
    "Verif.Setup.C260_bytes",
    "Verif.Setup.C260_order",
    "Verif.Setup.C260_false"
   ],
   "note": "False only just below a boundary, where rounding gives 1024.0 of the smaller unit (C260_false); at most 1024.0 is shown. Quotients by 1024 are exact, as floats are for sizes below 2^53 bytes."
  },
  {
   "property": "C261",
   "status": "partial",
   "theorems": [
    "Verif.Setup.Save.C261_partial",
    "Verif.Setup.Save.C261_within",
    "Verif.Setup.Save.C261_saved",
    "Verif.Setup.Save.subname_inner",
    "Verif.Setup.Save.C261_false"
   ],
   "note": "False if one name is the other one with something after a dot (m and m.x). Proved otherwise; the files of one object are different if the names of attributes have no dots, which justifies keeping the parts of file names in lists in the model of save and load."
  },
  {
   "property": "C262",
   "status": "proved",
   "theorems": [
    "Verif.Assoc.C262_cut"
   ],
   "note": "Real numbers in place of floating-point numbers; sparse matrices, as the code requires."
  },
  {
   "property": "C263",
   "status": "proved",
   "theorems": [
    "Verif.Assoc.C263_distribution",
    "Verif.Assoc.C263_size",
    "Verif.Assoc.C263_sign"
   ],
   "note": "Compare C149_counterexample, C225_false and C231_false, which are about compute_association. Real numbers in place of floating-point numbers."
  },
  {
   "property": "C264",
   "status": "proved",
   "theorems": [
    "Verif.Assoc.C264_similar",
    "Verif.Assoc.C264_one"
   ],
   "note": "Compare C231_false and C232_false, which are about compute_association. Real numbers in place of floating-point numbers."
  },
  {
   "property": "C265",
   "status": "proved",
   "theorems": [
    "Verif.Assoc.C265_rank",
    "Verif.Assoc.C265_bound"
   ],
   "note": "Compare C241, which is about compute_association. Real numbers in place of floating-point numbers."
  },
  {
   "property": "C266",
   "status": "proved",
   "theorems": [
    "Verif.Assoc.C266_between",
    "Verif.Assoc.C266_positive"
   ],
   "note": "Compare C258, which is about the sum of all values. Real numbers in place of floating-point numbers."
  },
  {
   "property": "C267",
   "status": "proved",
   "theorems": [
    "Verif.Assoc.C267_word",
    "Verif.Assoc.C267_collocate"
   ],
   "note": "C264 tells what such vectors mean for similarities. Real numbers in place of floating-point numbers."
  }
 ]
}