{"id": "C01", "title": "Parallel frequency list is schedule independent", "statement": "When ItemFreqHandler.build_item_freq returns, the frequency it reports for every type is the sum over the given files of that type's occurrences in the file, whatever the number of worker processes and however their queue operations interleave.", "quantifier": "all corpora (lists of files), all worker counts, all interleavings of the workers' get/process/put steps that let the call return, all types", "why_tests_cant": "the interleaving is chosen by the operating system; a test run exercises one schedule per execution and the number of schedules grows exponentially in the number of files", "anchors": ["nephosem/core/handler.py:Paralleler.process", "nephosem/core/handler.py:Paralleler._job_producer", "nephosem/models/typetoken.py:ItemFreqHandler._worker_loop", "nephosem/models/typetoken.py:ItemFreqHandler._process_results"]}
{"id": "C02", "title": "Every queued file is processed exactly once and all workers stop", "statement": "With at least one worker, every maximal run of the job engine ends with an empty job queue and every worker stopped after exactly one stop marker, and at any moment of any run the files handled so far together with the files still queued or being processed are exactly the submitted files, each once. Every run is finite.", "quantifier": "all file lists, all worker counts >= 1, all interleavings, all intermediate states", "why_tests_cant": "deadlock and duplication only show under particular interleavings; absence over all of them cannot be sampled", "anchors": ["nephosem/core/handler.py:Paralleler.process", "nephosem/core/handler.py:Paralleler._job_producer", "nephosem/models/typetoken.py:ItemFreqHandler._worker_loop"]}
{"id": "C03", "title": "A crashed worker never yields a wrong frequency list", "statement": "If some workers die at arbitrary points while a frequency list is built, build_item_freq either never returns or returns exactly the full per-file sum; it never returns an undercount. When a worker dies while it holds a file, the call never returns.", "quantifier": "all files, worker counts, interleavings and crash points of any subset of workers", "why_tests_cant": "a crash can strike between any two steps of any worker; tests cannot enumerate crash points times schedules", "anchors": ["nephosem/core/handler.py:Paralleler.process", "nephosem/models/typetoken.py:ItemFreqHandler._worker_loop", "nephosem/models/typetoken.py:ItemFreqHandler._process_results"]}
{"id": "C04", "title": "Parallel co-occurrence matrix is schedule independent", "statement": "With row and column vocabularies built from frequency dicts (the column vocabulary may be empty), when no worker dies, ColFreqHandler.build_col_freq returns a matrix whose named entry (target, collocate) is the sum of that pair's counts over all files, independent of worker count and interleaving, and it returns None exactly when no file contributes any count. With worker deaths the returned matrix may silently undercount.", "quantifier": "all per-file counts, worker counts >= 1, interleavings, target/collocate names; crash points for the second sentence", "why_tests_cant": "one schedule per run; the loss caused by a dying worker leaves no trace in the result", "anchors": ["nephosem/models/typetoken.py:ColFreqHandler._worker_loop_with_colvocab", "nephosem/models/typetoken.py:ColFreqHandler._worker_loop_without_colvocab", "nephosem/models/typetoken.py:ColFreqHandler._process_results", "nephosem/specutils/mxutils.py:merge_two_matrices"]}
{"id": "C05", "title": "Token retrieval keeps every worker's tokens", "statement": "TokenHandler.retrieve_tokens collects the tokens found by every worker process, for every schedule of the workers over the files.", "quantifier": "all file lists, worker counts, interleavings", "why_tests_cant": "the result depends on whether a worker happened to get no file at all, which is a race", "anchors": ["nephosem/models/typetoken.py:TokenHandler._worker_loop", "nephosem/models/typetoken.py:TokenHandler._process_results", "nephosem/core/handler.py:Paralleler.process"]}
{"id": "C06", "title": "Dependency matches are schedule independent", "statement": "A first DepRelHandler.build_dependency call yields, for every macro, exactly the matches of all sentences of all files, each once (up to order), so the resulting frequency matrix does not depend on the schedule or the number of workers.", "quantifier": "all file lists, worker counts, interleavings", "why_tests_cant": "schedules cannot be enumerated by tests", "anchors": ["nephosem/models/deprel.py:DepRelHandler._worker_loop", "nephosem/models/deprel.py:DepRelHandler._do_process_job", "nephosem/models/deprel.py:DepRelHandler._process_results", "nephosem/models/deprel.py:DepRelHandler.build_matrix_by_matches"]}
{"id": "C07", "title": "Re-running the dependency builder gives the same counts", "statement": "Calling build_dependency again on the same handler with the same files yields the same frequency matrix as the first call.", "quantifier": "all handlers, file lists, worker counts, schedules, and numbers of repeated calls", "why_tests_cant": "the state carried between calls depends on the whole call history; tests only call once", "anchors": ["nephosem/models/deprel.py:DepRelHandler.build_dependency", "nephosem/models/deprel.py:DepRelHandler._do_process_job", "nephosem/models/deprel.py:DepRelHandler._process_results"]}
{"id": "C08", "title": "A handler always has at least one worker", "statement": "Whatever worker count is requested and however many CPUs the machine has, the handler starts at least one and at most the available number of worker processes, and honours any positive request not exceeding the number of CPUs.", "quantifier": "all requested worker counts (including 0, negative and too large) and all CPU counts >= 1", "why_tests_cant": "depends on the machine; a test host has one fixed CPU count", "anchors": ["nephosem/core/handler.py:Paralleler.__init__"]}
{"id": "C09", "title": "The sliding window shows exactly the neighbours", "statement": "After feeding any sequence of lines to a Window, the centre is the line right_span positions back, the left part holds the left_span lines before it in order and the right part the right_span lines after it, with None exactly where the segment has no line.", "quantifier": "all spans, all token sequences, all positions", "why_tests_cant": "window behaviour depends on the relation between both spans and the segment length; all lengths are needed", "anchors": ["nephosem/core/terms.py:Window.update", "nephosem/core/terms.py:Window.init_span"]}
{"id": "C10", "title": "Co-occurrence counts equal the textbook definition", "statement": "For every corpus file, the count of (target, collocate) built by ColFreqHandler equals the number of pairs of positions in the same separator-delimited segment, the first of that target type and the second of that collocate, with the second at most left_span before or right_span after the first.", "quantifier": "all files, segmentations, spans, target and collocate strings, row and column vocabularies", "why_tests_cant": "the count must be right for every segment length relative to the spans; boundary behaviour at segment ends is not covered by sample corpora", "anchors": ["nephosem/models/typetoken.py:ColFreqHandler.update_one_match", "nephosem/models/typetoken.py:ColFreqHandler.process_right_window", "nephosem/core/handler.py:BaseHandler.update_one_file"]}
{"id": "C11", "title": "Every query occurrence yields one token with its exact context", "statement": "For every corpus file, TokenHandler records for each query type exactly one token per matching line of that type, in file order, carrying that line's number and, as left and right collocates, exactly the lines of the same segment within the spans whose collocate string passes the column vocabulary.", "quantifier": "all files, segmentations, spans, queries and column vocabularies", "why_tests_cant": "needs all segment lengths, spans and vocabularies", "anchors": ["nephosem/models/typetoken.py:TokenHandler.update_one_match", "nephosem/models/typetoken.py:TokenHandler.process_right_window", "nephosem/core/handler.py:BaseHandler.update_one_file"]}
{"id": "C12", "title": "Contexts never cross a separator line", "statement": "Processing a file gives the same counts and the same tokens (up to line numbers) as processing its separator-delimited segments as separate files and adding the results; changing the text of one segment never changes the contribution of another.", "quantifier": "all files and all positions of separators", "why_tests_cant": "leakage across a boundary depends on spans and segment lengths in combination", "anchors": ["nephosem/core/handler.py:BaseHandler.update_one_file", "nephosem/models/typetoken.py:ColFreqHandler.process_right_window", "nephosem/models/typetoken.py:TokenHandler.process_right_window"]}
{"id": "C13", "title": "Type frequencies count exactly the matching lines", "statement": "The frequency list of a file gives each type the number of lines that match the line format with that type; separators and spans play no role; the sum of all frequencies is the number of matching lines; splitting a file in two and adding the lists gives the same list.", "quantifier": "all files, all splits, all types", "why_tests_cant": "statement over all line sequences", "anchors": ["nephosem/models/typetoken.py:ItemFreqHandler.update_one_file", "nephosem/core/vocab.py:Vocab.increment", "nephosem/core/vocab.py:Vocab.sum_freq"]}
{"id": "C14", "title": "Swapping the spans transposes the co-occurrence matrix", "statement": "When target and collocate strings have the same format, the counts for spans (L,R) of (a,b) equal the counts for spans (R,L) of (b,a); with equal spans the matrix is symmetric.", "quantifier": "all files, spans, strings", "why_tests_cant": "quantifies over all corpora; a violation appears only at segment ends", "anchors": ["nephosem/models/typetoken.py:ColFreqHandler.update_one_match", "nephosem/models/typetoken.py:ColFreqHandler.process_right_window"]}
{"id": "C15", "title": "Filtering by column vocabulary commutes with counting", "statement": "Building the matrix with a non-empty column vocabulary gives the counts obtained without one, restricted to the collocates of that vocabulary; the same holds for the row vocabulary.", "quantifier": "all files, spans, vocabularies", "why_tests_cant": "all vocabularies and corpora", "anchors": ["nephosem/models/typetoken.py:ColFreqHandler.update_one_match", "nephosem/core/vocab.py:Vocab.__contains__"]}
{"id": "C16", "title": "Vocab behaves as a finite map under any operation history", "statement": "For a vocabulary built from a plain dict, after any sequence of increment, item assignment and queries, the frequency of every item equals what an abstract map from strings to numbers gives after the same sequence; membership, length and total agree with it too, and whether the vocabulary filters is decided once, at construction, by its being non-empty then. For one built from a defaultdict the frequencies agree as well, but reading an absent item adds it with frequency 0.", "quantifier": "all operation sequences, all items", "why_tests_cant": "histories are unbounded", "anchors": ["nephosem/core/vocab.py:Vocab.increment", "nephosem/core/vocab.py:Vocab.__setitem__", "nephosem/core/vocab.py:Vocab.__getitem__", "nephosem/core/vocab.py:Vocab.__contains__", "nephosem/core/vocab.py:Vocab.sum_freq", "nephosem/core/vocab.py:Vocab.__init__"]}
{"id": "C17", "title": "Frequency ranking is total, deterministic and insertion-order free", "statement": "The ranked view of a vocabulary lists every item exactly once, frequencies never increase, ties are in ascending string order, and two vocabularies that map the same items to the same frequencies give the same ranking whatever order the items were inserted in.", "quantifier": "all vocabularies, all insertion orders", "why_tests_cant": "all permutations of all vocabularies", "anchors": ["nephosem/core/vocab.py:Vocab.dataframe", "nephosem/core/vocab.py:Vocab.get_item_list", "nephosem/utils.py:sort_dict"]}
{"id": "C18", "title": "Slicing keeps the most frequent items", "statement": "vocab[:k] has min(k, size) items, keeps their frequencies, and no dropped item has a higher frequency than a kept one; vocab[:k] and vocab[k:] split the vocabulary.", "quantifier": "all vocabularies, all k", "why_tests_cant": "all sizes and all tie patterns", "anchors": ["nephosem/core/vocab.py:Vocab.__getitem__", "nephosem/core/vocab.py:Vocab.dataframe"]}
{"id": "C19", "title": "Selection returns exactly the requested items", "statement": "vocab[list of items] has exactly the requested items that occur, with their frequencies; vocab[vocab.freq op n] exactly those satisfying the comparison; a tuple of conditions gives the intersection; subvocab(list) has exactly the requested items, absent ones with frequency 0.", "quantifier": "all vocabularies, item lists, thresholds, tuples of conditions", "why_tests_cant": "all combinations", "anchors": ["nephosem/core/vocab.py:Vocab.__getitem__", "nephosem/core/vocab.py:Vocab._select_by_items", "nephosem/core/vocab.py:Vocab._select_by_freqs", "nephosem/core/vocab.py:Vocab.subvocab", "nephosem/core/vocab.py:Vocab.__ge__"]}
{"id": "C20", "title": "Plain-text vocabulary files round-trip", "statement": "Saving a vocabulary in plain format and loading it gives a vocabulary with the same items and frequencies.", "quantifier": "all vocabularies with integer frequencies", "why_tests_cant": "every string of characters can be an item; failures hide in rare characters", "anchors": ["nephosem/utils.py:save_dict_plain", "nephosem/utils.py:load_dict_plain", "nephosem/core/vocab.py:Vocab.save", "nephosem/core/vocab.py:Vocab.load"]}
{"id": "C21", "title": "Dict and sparse matrix representations round-trip", "statement": "Turning a nested dict of counts into a sparse matrix with given row and column items and back gives the same non-zero entries by name; the sparse entry at (row item, column item) is the dict's value.", "quantifier": "all nested dicts, all duplicate-free item lists covering them, all orders of these lists", "why_tests_cant": "all shapes, orders and patterns of absent cells", "anchors": ["nephosem/specutils/mxutils.py:transform_dict_to_spmatrix", "nephosem/specutils/mxutils.py:transform_spmatrix_to_dict"]}
{"id": "C22", "title": "Merging matrices adds named entries", "statement": "merge_two_matrices gives at each (row, column) name the sum of the operands' entries there (absent counts as 0), over the union of column items in sorted order; it is commutative and associative, and refuses operands with different rows.", "quantifier": "all matrices, all column item lists without duplicates", "why_tests_cant": "all overlaps and orders of columns", "anchors": ["nephosem/specutils/mxutils.py:merge_two_matrices", "nephosem/specutils/mxutils.py:transform_indices", "nephosem/specutils/mxutils.py:merge_matrices"]}
{"id": "C23", "title": "Submatrix selects by name without changing entries", "statement": "submatrix(row, col) keeps exactly the requested names that exist, in requested order, with the same named entries; if none exist it returns None.", "quantifier": "all matrices with duplicate-free items, all request lists (with unknown and repeated names)", "why_tests_cant": "all request lists", "anchors": ["nephosem/core/matrix.py:TypeTokenMatrix.submatrix", "nephosem/core/matrix.py:TypeTokenMatrix.item2rowid"]}
{"id": "C24", "title": "Reorder, transpose and concatenate preserve named entries", "statement": "Reordering rows or columns by a permutation of the names, transposing (with names swapped) and concatenating keep every named entry; transposing twice and reordering back are identities; reordering with an unknown name is an error.", "quantifier": "all matrices and permutations", "why_tests_cant": "all permutations", "anchors": ["nephosem/core/matrix.py:TypeTokenMatrix.reorder", "nephosem/core/matrix.py:TypeTokenMatrix.transpose", "nephosem/core/matrix.py:TypeTokenMatrix.concatenate", "nephosem/core/matrix.py:SparseMatrix.reorder"]}
{"id": "C25", "title": "Threshold filtering keeps exactly the entries above the cutoff", "statement": "m.multiply(m > k) keeps exactly the entries of m whose value exceeds k, with their value, and makes all others absent or zero.", "quantifier": "all sparse matrices (including ones with stored zeros), all thresholds k >= 0", "why_tests_cant": "the stored-zero case and every pattern of stored entries", "anchors": ["nephosem/core/matrix.py:SparseMatrix.multiply", "nephosem/core/matrix.py:SparseMatrix.__gt__"]}
{"id": "C26", "title": "drop_empty removes exactly the empty rows or columns", "statement": "drop_empty keeps exactly the rows (columns) that have a non-zero entry, in the original order, with unchanged named entries, and is idempotent.", "quantifier": "all matrices", "why_tests_cant": "all sparsity patterns, including all-empty matrices and stored zeros", "anchors": ["nephosem/core/matrix.py:TypeTokenMatrix.drop_empty", "nephosem/core/matrix.py:TypeTokenMatrix.drop_empty_rows", "nephosem/core/matrix.py:SparseMatrix.empty_rows"]}
{"id": "C27", "title": "Token-context matrix records the collocate's position", "statement": "In the token-by-context matrix built from retrieved tokens, the entry for (token, collocate) is the signed distance of an occurrence of the collocate in that token's recorded context (negative left, positive right), it is the nearest occurrence, and the entry is absent iff the collocate does not occur.", "quantifier": "all token lists, all contexts with repeated collocates", "why_tests_cant": "repetition patterns are unbounded", "anchors": ["nephosem/specutils/mxutils.py:transform_nodes_to_matrix"]}
{"id": "C28", "title": "Matrices survive save and load", "statement": "Saving a matrix and loading it with the same file name and options gives the same items and the same entries, whatever was stored in the directory before.", "quantifier": "all matrices, file names, prior file-system states, packed and unpacked mode", "why_tests_cant": "prior file-system state and name suffixes are unbounded", "anchors": ["nephosem/core/matrix.py:TypeTokenMatrix.save", "nephosem/core/matrix.py:TypeTokenMatrix.load"]}
{"id": "C29", "title": "Similarity ranks order the neighbours", "statement": "In each row of the similarity-rank matrix the ranks are a permutation of 1..n and a more similar item never has a larger rank; most_similar returns k items none of which is further than an item left out.", "quantifier": "all similarity matrices, all k", "why_tests_cant": "all tie patterns and sizes", "anchors": ["nephosem/specutils/mxcalc.py:compute_simrank", "nephosem/core/matrix.py:TypeTokenMatrix.most_similar", "nephosem/specutils/mxutils.py:get_smallest_k"]}
{"id": "C30", "title": "PPMI is the positive part of PMI and never negative", "statement": "For every contingency table the ppmi value is max(0, pmi), hence never negative, and it is positive iff the observed frequency exceeds the expected one.", "quantifier": "all contingency tables with real entries, total > 0", "why_tests_cant": "real-valued domain", "anchors": ["nephosem/specutils/mxcalc.py:calc_pmi", "nephosem/specutils/mxcalc.py:calc_ppmi", "nephosem/specutils/mxcalc.py:adjust_val"]}
{"id": "C31", "title": "The two PPMI implementations agree", "statement": "compute_ppmi and compute_association(meas='ppmi') give the same value for the same observed frequency and marginals.", "quantifier": "all positive frequencies and marginals", "why_tests_cant": "real-valued domain", "anchors": ["nephosem/specutils/mxcalc.py:compute_ppmi", "nephosem/specutils/mxcalc.py:calc_association", "nephosem/specutils/mxcalc.py:calc_ppmi"]}
{"id": "C32", "title": "Association measures stay in their ranges", "statement": "For every contingency table of non-negative counts: Dice is in [0,1], Delta P in [-1,1], chi-square is non-negative and zero iff observed equals expected, the z-score has the sign of observed minus expected, and the log-likelihood ratio is non-negative.", "quantifier": "all contingency tables", "why_tests_cant": "real-valued domain, boundary tables with zero cells", "anchors": ["nephosem/specutils/mxcalc.py:calc_dice", "nephosem/specutils/mxcalc.py:calc_deltap", "nephosem/specutils/mxcalc.py:calc_chisq", "nephosem/specutils/mxcalc.py:calc_zscore", "nephosem/specutils/mxcalc.py:calc_lik"]}
{"id": "C33", "title": "Symmetric measures do not depend on which word is the target", "statement": "PMI, PPMI, LLR, chi-square, z-score and Dice give the same value when the roles of target and collocate are exchanged.", "quantifier": "all contingency tables", "why_tests_cant": "real-valued domain", "anchors": ["nephosem/specutils/mxcalc.py:calc_pmi", "nephosem/specutils/mxcalc.py:calc_lik", "nephosem/specutils/mxcalc.py:calc_chisq", "nephosem/specutils/mxcalc.py:calc_zscore", "nephosem/specutils/mxcalc.py:calc_dice"]}
{"id": "C34", "title": "Association matrices keep the sparsity pattern and items", "statement": "compute_association returns a matrix with the same row and column items that stores a value exactly where the frequency matrix stores one, computed from that cell's frequency and the marginals of that row and column name.", "quantifier": "all frequency matrices, all marginal vocabularies containing the items", "why_tests_cant": "all sparsity patterns and item orders", "anchors": ["nephosem/specutils/mxcalc.py:compute_association", "nephosem/specutils/mxcalc.py:calc_association"]}
{"id": "C35", "title": "Token weights pick the type's weight for contexts that occur", "statement": "compute_token_weights gives at (token, context) the weight of (type of token, context) if the context occurs with the token and 0 otherwise; tokens of types without weights get zero rows; permuting the rows of the weight matrix changes nothing.", "quantifier": "all token-context matrices and weight matrices with equal columns", "why_tests_cant": "all sizes and orders", "anchors": ["nephosem/specutils/mxcalc.py:compute_token_weights"]}
{"id": "C36", "title": "Token vectors are name-aligned weighted sums", "statement": "compute_token_vectors (addition) gives at (token, feature) the sum over contexts of weight times second-order value, matched by context name irrespective of the order of the items; with 'multiplication' it gives the product over the token's contexts.", "quantifier": "all matrices over the same context items, in any order", "why_tests_cant": "all sizes and orders", "anchors": ["nephosem/specutils/mxcalc.py:compute_token_vectors", "nephosem/specutils/mxcalc.py:dot_addition", "nephosem/specutils/mxcalc.py:dot_multiplication"]}
{"id": "C37", "title": "Pattern matching finds all embeddings, each once", "statement": "Matching a macro against a tree sentence records exactly the maps from pattern nodes to sentence nodes that send pattern edges to sentence edges, satisfy every node and edge condition and give sibling pattern nodes different words; each such map is recorded once.", "quantifier": "all sentence trees, all rooted pattern trees, all node and edge conditions", "why_tests_cant": "all pairs of trees", "anchors": ["nephosem/specutils/deputils.py:tree_match", "nephosem/specutils/deputils.py:subtree_match", "nephosem/specutils/deputils.py:match_level", "nephosem/specutils/deputils.py:match_successors"]}
{"id": "C38", "title": "Target filter only removes matches", "statement": "With a target filter, the recorded matches are exactly the unfiltered matches whose target string is in the filter; with no targets given, all targets are kept.", "quantifier": "all sentences, macros, filters", "why_tests_cant": "all filters and trees", "anchors": ["nephosem/specutils/deputils.py:add_match", "nephosem/models/deprel.py:DepRelHandler.__init__", "nephosem/models/deprel.py:DepRelHandler._do_process_job"]}
{"id": "C39", "title": "Sentence reader partitions the matching lines", "statement": "read_sentence yields sentences whose concatenation is exactly the file's matching lines with their 1-based line numbers, in order, cut exactly at separator lines, and every yielded sentence can be turned into a graph.", "quantifier": "all files", "why_tests_cant": "all placements of separators", "anchors": ["nephosem/models/deprel.py:read_sentence", "nephosem/core/graph.py:SentenceGraph.__init__"]}
{"id": "C40", "title": "Linear patterns are recognised", "statement": "A tree pattern is classified as linear iff it is a path, i.e. no node has more than two neighbours.", "quantifier": "all tree patterns", "why_tests_cant": "all trees", "anchors": ["nephosem/core/graph.py:PatternGraph.islinear"]}
{"id": "C41", "title": "Root and depth of a pattern", "statement": "For a rooted pattern tree, the computed root is the only node without a predecessor whatever node is numbered 1, and the computed depth is the number of nodes on the longest root-to-leaf path.", "quantifier": "all rooted trees and numberings", "why_tests_cant": "all trees", "anchors": ["nephosem/specutils/deputils.py:get_root", "nephosem/specutils/deputils.py:get_depth", "nephosem/specutils/deputils.py:get_depth_of_node"]}
{"id": "C42", "title": "Full feature strings mention every pattern node", "statement": "The full feature representation of a match contains the representation of every pattern node (the target as #T#) exactly once.", "quantifier": "all patterns, targets and matches", "why_tests_cant": "all trees and choices of target", "anchors": ["nephosem/core/graph.py:MacroGraph.feature_full", "nephosem/core/graph.py:MacroGraph.preorder_recur"]}
{"id": "C43", "title": "Merging committees uses each committee once", "statement": "Committee merging outputs pairs that together use each committee index exactly once, merges only pairs whose similarity reaches theta, and merges a committee with its most similar still-free later committee whenever that similarity reaches theta.", "quantifier": "all similarity matrices, thresholds, numbers of committees", "why_tests_cant": "all sizes, all tie patterns", "anchors": ["nephosem/models/cbc.py:get_merged_committee"]}
{"id": "C44", "title": "Cluster cleaning keeps a minimal representative of every cluster", "statement": "After cleaning, no kept cluster contains another kept cluster, and every original multi-element cluster contains (or equals) some kept cluster; a kept singleton occurs in no cluster.", "quantifier": "all cluster lists", "why_tests_cant": "all overlap and duplication patterns", "anchors": ["nephosem/models/cbc.py:clean_clusters", "nephosem/models/cbc.py:remove_duplicate", "nephosem/models/cbc.py:remove_superset", "nephosem/models/cbc.py:remove_singleton", "nephosem/models/cbc.py:inverted_index"]}
{"id": "C45", "title": "CBC recursion terminates and accounts for all residues", "statement": "CBC.cluster stops after at most min(num_iter, number of elements) rounds; each round's residues are a sub-list of the previous round's; a residue of a round is exactly an element whose similarity to every committee of that round is below theta2.", "quantifier": "all inputs, all outcomes of the inner steps (including their failing)", "why_tests_cant": "unbounded recursion over arbitrary data", "anchors": ["nephosem/models/cbc.py:CBC.cluster", "nephosem/models/cbc.py:major_steps", "nephosem/models/cbc.py:cbc_step3"]}
{"id": "C46", "title": "Multicore and single-core CBC step 1 agree", "statement": "cbc_step1_multicore returns the same clusters (up to order) as cbc_step1_single for every assignment of pool tasks to pool processes.", "quantifier": "all element lists, core counts, task-to-process assignments", "why_tests_cant": "the assignment is decided by the operating system", "anchors": ["nephosem/models/cbc.py:cbc_step1_multicore", "nephosem/models/cbc.py:cbc_step1_call", "nephosem/models/cbc.py:cbc_step1_single"]}
{"id": "C47", "title": "Condensed index is a bijection on unordered pairs", "statement": "square_to_condensed is symmetric, maps the pairs i<j<n one-to-one onto 0..n(n-1)/2-1, and average_similarity recovers n from the condensed length, so a cluster's average similarity lies between its smallest and largest pairwise similarity.", "quantifier": "all n, all pairs, all clusters", "why_tests_cant": "all sizes", "anchors": ["nephosem/models/cbc.py:square_to_condensed", "nephosem/models/cbc.py:average_similarity"]}
{"id": "C48", "title": "Flat clusters partition the elements", "statement": "hierarchical_cluster returns groups that contain each element index exactly once, and mapping a cluster to the global matrix and back gives the same items.", "quantifier": "all label vectors, item lists", "why_tests_cant": "all sizes", "anchors": ["nephosem/models/cbc.py:hierarchical_cluster", "nephosem/models/cbc.py:sub2glb", "nephosem/models/cbc.py:score_cluster"]}
{"id": "C49", "title": "User configuration overrides defaults and nothing else", "statement": "update_config returns, for every option, the user file's value if it sets it and the default otherwise; the defaults held by the loader never change, whatever the caller does with returned settings.", "quantifier": "all default and user configurations, all call histories", "why_tests_cant": "histories and configurations are unbounded", "anchors": ["nephosem/conf.py:ConfigLoader.update_config", "nephosem/conf.py:ConfigLoader.settings", "nephosem/conf.py:ConfigLoader.load_config"]}
{"id": "C50", "title": "Temporary directory choice", "statement": "A handler can be constructed from any settings that have the formatter keys: the temporary directory is tmp-path if set, else a tmp directory under output-path if that is set, else the default.", "quantifier": "all settings with or without tmp-path and output-path", "why_tests_cant": "finite case split, but the suite never constructs the missing-key cases", "anchors": ["nephosem/core/handler.py:BaseHandler.__init__"]}
{"id": "C51", "title": "File lists resolve to the recorded files", "statement": "Reading a file list gives, in order, its non-blank non-comment lines; names containing a path separator are kept and bare names are placed in the corpus directory.", "quantifier": "all file lists and corpus directories", "why_tests_cant": "all contents", "anchors": ["nephosem/utils.py:read_fnames", "nephosem/core/handler.py:BaseHandler.prepare_fnames"]}
{"id": "C52", "title": "Saving leaves the object unchanged", "statement": "SaveLoad.save leaves every attribute of the saved object as it was, whether or not writing fails at any point.", "quantifier": "all objects, all attribute sets, all failure points", "why_tests_cant": "all crash points", "anchors": ["nephosem/utils.py:SaveLoad._save_specials", "nephosem/utils.py:SaveLoad._smart_save"]}
{"id": "C53", "title": "Matrix sums are the named marginals", "statement": "sum() is the sum of all entries; sum(axis=1) maps every row name to the sum of its row and sum(axis=0) every column name to the sum of its column, so both sets of marginals add up to the total.", "quantifier": "all matrices with duplicate-free items", "why_tests_cant": "all sizes and values, including one row or one column", "anchors": ["nephosem/core/matrix.py:TypeTokenMatrix.sum"]}
{"id": "C54", "title": "drop keeps exactly the rows with enough non-zero entries", "statement": "drop(axis, n_nonzero=n) keeps, in order and with unchanged entries, exactly the rows (columns) that have more than n non-zero entries.", "quantifier": "all sparse matrices, all n, both axes", "why_tests_cant": "all matrices and thresholds", "anchors": ["nephosem/core/matrix.py:TypeTokenMatrix.drop", "nephosem/core/matrix.py:TypeTokenMatrix.count_nonzero"]}
{"id": "C55", "title": "Merging by name adds entries over both item unions", "statement": "m.merge(t) has the sorted union of the rows and the sorted union of the columns of m and t, and each named entry is the sum of the operands' entries there (absent counts as 0).", "quantifier": "all sparse matrices, all item lists without duplicates", "why_tests_cant": "all matrices", "anchors": ["nephosem/core/matrix.py:SparseMatrix.merge", "nephosem/core/matrix.py:TypeTokenMatrix.merge"]}
{"id": "C56", "title": "Merging a list of matrices adds named entries", "statement": "merge_matrices over a non-empty list gives at each (row, column) name the sum of the entries of all matrices there, over the union of the rows and of the columns.", "quantifier": "all non-empty lists of sparse matrices", "why_tests_cant": "lists and matrices are unbounded", "anchors": ["nephosem/specutils/mxutils.py:merge_matrices", "nephosem/specutils/mxutils.py:merge_matrix_dict"]}
{"id": "C57", "title": "Saving and loading a matrix touch only its own files", "statement": "Saving a packed matrix creates or replaces only its .pac file and leaves every other stored file untouched; loading a matrix changes no stored file.", "quantifier": "all matrices, file names and prior contents of the file system", "why_tests_cant": "prior file-system states are unbounded", "anchors": ["nephosem/core/matrix.py:TypeTokenMatrix.save", "nephosem/core/matrix.py:TypeTokenMatrix.load"]}
{"id": "C58", "title": "equal decides equality of matrices", "statement": "m.equal(t) is True exactly if both have the same row items, the same column items and the same entry for every pair of items.", "quantifier": "all pairs of sparse matrices", "why_tests_cant": "all matrices, including explicitly stored zeros", "anchors": ["nephosem/core/matrix.py:TypeTokenMatrix.equal", "nephosem/core/matrix.py:SparseMatrix.equal"]}
{"id": "C59", "title": "get_colloc_contexts lists the contexts of an item", "statement": "get_colloc_contexts(item) lists, without repetition, exactly the column items for which the matrix stores an entry in the item's row; an unknown item is a KeyError.", "quantifier": "all sparse matrices and items", "why_tests_cant": "all matrices", "anchors": ["nephosem/core/matrix.py:TypeTokenMatrix.get_colloc_contexts"]}
{"id": "C60", "title": "sample keeps the requested number of rows unchanged", "statement": "sample(p) returns p rows for an integer p and max(1, int(p*n)) of the n rows for a fraction 0<p<1: distinct rows, in their original order, with all columns and unchanged entries; other p are refused with a ValueError.", "quantifier": "all compressed sparse matrices, all p, all outcomes of the random choice", "why_tests_cant": "all random outcomes", "anchors": ["nephosem/core/matrix.py:TypeTokenMatrix.sample"]}
{"id": "C61", "title": "Token vectors are unit vectors or zero", "statement": "With norm='l2' every row of compute_token_vectors (addition) has Euclidean length 1, or is zero because the sum of its contexts was zero; with norm='l1' the absolute values add up to 1 or to 0; normalising never changes the direction.", "quantifier": "all pairs of csr matrices over the same contexts, operation addition", "why_tests_cant": "all real matrices", "anchors": ["nephosem/specutils/mxcalc.py:compute_token_vectors"]}
{"id": "C62", "title": "weightedmean is the weighted mean", "statement": "With operation='weightedmean' and no normalisation, the vector of a token with non-negative, not all zero weights is the weighted mean of the vectors of its context words: it lies between their smallest and largest value in every dimension; a token without weights gets zeros.", "quantifier": "all token-context weights and context vectors", "why_tests_cant": "all real matrices", "anchors": ["nephosem/specutils/mxcalc.py:compute_token_vectors"]}
{"id": "C63", "title": "Cosine similarity matrix", "statement": "compute_cosine gives a matrix over the row items (axis=0) or column items (axis=1) that is symmetric, has ones on the diagonal and values in [-1, 1]; off the diagonal a value is the scalar product over the product of the lengths (0 for a zero vector); multiplying vectors by positive factors changes nothing; other axes are refused.", "quantifier": "all matrices, all axes", "why_tests_cant": "all real matrices", "anchors": ["nephosem/specutils/mxcalc.py:compute_cosine"]}
{"id": "C64", "title": "Measures agree with the handbook formulas", "statement": "pmi is log(O/E), chisq is the sum of (O-E)^2/E over the four cells, zscore is (O-E)/sqrt(E), lik is twice the sum of O*log(O/E), dice is 2*O11/(R1+C1), deltap and deltapColl are differences of relative frequencies and logratio is the log of their ratio.", "quantifier": "all contingency tables with positive margins", "why_tests_cant": "real-valued identities over all tables", "anchors": ["nephosem/specutils/mxcalc.py:calc_pmi", "nephosem/specutils/mxcalc.py:calc_lik", "nephosem/specutils/mxcalc.py:calc_chisq", "nephosem/specutils/mxcalc.py:calc_zscore", "nephosem/specutils/mxcalc.py:calc_dice", "nephosem/specutils/mxcalc.py:calc_deltap", "nephosem/specutils/mxcalc.py:calc_deltap_coll", "nephosem/specutils/mxcalc.py:calc_log_ratio"]}
{"id": "C65", "title": "Pattern notation is read back as the tree it describes", "statement": "Writing a rooted pattern tree in the arrow notation (target, relation and node texts, brackets around several branches) and reading it with parse_pattern gives the same nodes, edges, directions and labels.", "quantifier": "all trees of node and relation texts free of the notation's own characters", "why_tests_cant": "unbounded nesting and branching", "anchors": ["nephosem/specutils/deputils.py:parse_pattern", "nephosem/specutils/deputils.py:parse_sub", "nephosem/specutils/deputils.py:find_arrow"]}
{"id": "C66", "title": "Feature strings show every relation in full", "statement": "The full feature string of a match shows for every edge the whole matched relation text, also when it contains a colon such as nmod:poss.", "quantifier": "all complete matches of rooted patterns", "why_tests_cant": "all patterns and relation texts", "anchors": ["nephosem/core/graph.py:MacroGraph.feature"]}
{"id": "C67", "title": "The matrix of matches counts matches", "statement": "After build_dependency, build_matrix_by_matches returns a matrix whose rows are the distinct target strings and columns the distinct feature strings of the recorded matches, each sorted, and whose entry for (t, f) is the number of matches, over all macros, with target t and feature f.", "quantifier": "all lists of macros with recorded matches", "why_tests_cant": "any number of matches", "anchors": ["nephosem/models/deprel.py:DepRelHandler.build_matrix_by_matches"]}
{"id": "C68", "title": "Feature strings do not depend on the target word", "statement": "Two matches of one pattern that differ only in the word matched by the target node have the same feature string, so both count towards the same column.", "quantifier": "all pairs of complete matches", "why_tests_cant": "pairs of matches of arbitrary patterns", "anchors": ["nephosem/core/graph.py:MacroGraph.feature"]}
{"id": "C69", "title": "Sentence graphs hold exactly the words and relations of the lines", "statement": "The graph built for a sentence has one node per word line, with the line number and the node columns of the format as attributes, one edge from the head to each word, with the edge columns, and nothing else; if every word hangs from the artificial head 0 the graph is a tree with root 0.", "quantifier": "all sentences of well-formed lines with distinct positive word numbers", "why_tests_cant": "any number of words and any head structure", "anchors": ["nephosem/core/graph.py:SentenceGraph.build_graph", "nephosem/core/graph.py:SentenceGraph.generate_graph"]}
{"id": "C70", "title": "build_dependency counts all matches of all sentences", "statement": "On a handler with fresh templates, build_dependency returns the matrix whose entry for target t and feature f is the number of matches with these strings, over all templates, all files and all sentences, whatever the number of workers and the schedule.", "quantifier": "all corpora of well-formed sentences, all templates, all target lists, all schedules", "why_tests_cant": "concurrency, unbounded corpora and patterns", "anchors": ["nephosem/models/deprel.py:DepRelHandler.build_dependency", "nephosem/models/deprel.py:DepRelHandler.build_matrix_by_matches"]}
{"id": "C71", "title": "CBC options change the clustering", "statement": "CBC(..., highest_score=True) makes step 1 contribute one best cluster per element, and score_func chooses the scoring function, as documented.", "quantifier": "all matrices and option values", "why_tests_cant": "statement about all inputs: an option that is ignored looks right whenever both settings agree", "anchors": ["nephosem/models/cbc.py:CBC.__init__", "nephosem/models/cbc.py:major_steps", "nephosem/models/cbc.py:score_cluster"]}
{"id": "C72", "title": "Every element of a CBC round ends in a committee or among the residues", "statement": "After a round of CBC, each element that is not a residue is a member of one of the returned committees.", "quantifier": "all matrices, thresholds and element lists", "why_tests_cant": "all similarity structures", "anchors": ["nephosem/models/cbc.py:cbc_step3", "nephosem/models/cbc.py:major_steps"]}
{"id": "C73", "title": "score_cluster with highest_score returns the best cluster", "statement": "score_cluster(clusters, ..., highest_score=True) returns a cluster whose score is the largest of all clusters' scores.", "quantifier": "all non-empty lists of clusters and all similarities", "why_tests_cant": "unbounded number of clusters, any scores including negative ones", "anchors": ["nephosem/models/cbc.py:score_cluster"]}
{"id": "C74", "title": "Cleaning the clusters loses no element", "statement": "Every element that is in some cluster given to clean_clusters is in one of the kept clusters or among the kept singletons.", "quantifier": "all lists of scored clusters", "why_tests_cant": "any number of overlapping clusters", "anchors": ["nephosem/models/cbc.py:clean_clusters", "nephosem/models/cbc.py:remove_superset", "nephosem/models/cbc.py:remove_singleton"]}
{"id": "C75", "title": "The minsize criterion yields a flat cluster of the requested size", "statement": "Cutting a dendrogram with prune_method='minsize' and size t gives flat clusters of which at least one has t or more elements, if there are that many elements; a threshold word other than mean, median or a percentage is refused, and an unknown criterion gives no clusters at all.", "quantifier": "all linkage matrices and all sizes", "why_tests_cant": "all dendrograms", "anchors": ["nephosem/models/cbc.py:flat_cluster"]}
{"id": "C76", "title": "Committees of CBC step 2 are the cleaned clusters, pairwise merged, plus singletons", "statement": "Each committee consists of one kept cluster, or of two kept clusters whose committee vectors have a cosine of at least theta1, plus exactly those kept singletons whose most similar committee it is with a similarity of at least theta1; every kept cluster goes into exactly one committee.", "quantifier": "all lists of scored clusters, thresholds and similarities", "why_tests_cant": "unbounded number of clusters and elements", "anchors": ["nephosem/models/cbc.py:cbc_step2", "nephosem/models/cbc.py:get_merged_committee"]}
{"id": "C77", "title": "Committee vectors hold the positive PMI of the committee", "statement": "The vector of a committee has, for each context, the positive part of the pointwise mutual information between the mean row of the members and the context, computed against the sum of all other rows: never negative, 0 for contexts no member has, positive exactly for contexts relatively more frequent in the committee than overall, and independent of the order of the members.", "quantifier": "all non-negative frequency matrices with a positive total, all committees", "why_tests_cant": "real-valued identities over all matrices", "anchors": ["nephosem/models/cbc.py:calc_committee_vectors", "nephosem/models/cbc.py:calc_meas_vec", "nephosem/specutils/mxutils.py:centroid_of_cluster", "nephosem/specutils/mxutils.py:sum_of_cluster"]}
{"id": "C78", "title": "CBC judges each element by its own matrix row", "statement": "Clustering a list of elements that are rows of the matrices uses for every element the row of that element, whatever the order of the rows and whatever further rows the matrices have.", "quantifier": "all matrices and all element lists taken from their rows", "why_tests_cant": "all orders and subsets of rows", "anchors": ["nephosem/models/cbc.py:CBC.__init__", "nephosem/models/cbc.py:major_steps", "nephosem/models/cbc.py:cbc_step2", "nephosem/models/cbc.py:cbc_step3"]}
{"id": "C79", "title": "A one-element committee has the element's ppmi row as its vector", "statement": "The vector calculated for a committee of a single element equals the row of that element in the ppmi matrix that compute_association gives for the same frequencies.", "quantifier": "all non-negative frequency matrices with a positive total", "why_tests_cant": "two independent real-valued computations on all matrices", "anchors": ["nephosem/models/cbc.py:calc_meas_vec", "nephosem/specutils/mxcalc.py:calc_ppmi"]}
{"id": "C80", "title": "An unreadable settings file is reported", "statement": "Loading settings from a file that does not exist or has an option without a meaning reports an error rather than continuing with other settings.", "quantifier": "all file systems and file contents", "why_tests_cant": "all contents and missing files", "anchors": ["nephosem/conf.py:ConfigLoader.load_config", "nephosem/conf.py:ConfigLoader.update_config"]}
{"id": "C81", "title": "Constructing a handler leaves the user's files alone", "statement": "Constructing a handler creates no file and deletes none outside the temporary directory it is going to use; in particular the files in its output directory survive.", "quantifier": "all settings and all existing files", "why_tests_cant": "all directory contents", "anchors": ["nephosem/core/handler.py:BaseHandler.__init__", "nephosem/core/handler.py:Paralleler.__init__", "nephosem/utils.py:clean_dir"]}
{"id": "C82", "title": "Without a file list the whole corpus is used", "statement": "Without a file list every file below the corpus path is used exactly once, directory by directory in an order that does not depend on how the directories are found; a Python list is used as it is; anything else but a string, and a missing corpus path, is refused.", "quantifier": "all directory trees, lists and orders of discovery", "why_tests_cant": "all trees and orders", "anchors": ["nephosem/core/handler.py:BaseHandler.prepare_fnames", "nephosem/utils.py:read_fnames_of_corpus"]}
{"id": "C83", "title": "Loading gives back what was saved", "statement": "An object saved with SaveLoad.save without an exception is loaded by SaveLoad.load with every attribute as it was, at every depth of nested objects, except that the attributes listed in ignore are None; attributes stored separately come back from their own files.", "quantifier": "all objects with nested objects, all sets of separate and ignored attributes, all sizes", "why_tests_cant": "unbounded nesting and attribute sets", "anchors": ["nephosem/utils.py:SaveLoad.save", "nephosem/utils.py:SaveLoad.load", "nephosem/utils.py:SaveLoad._save_specials", "nephosem/utils.py:SaveLoad._load_specials"]}
{"id": "C84", "title": "Types, collocates and tokens are the columns the settings name", "statement": "For a formatter that was constructed, the type, collocate and token of a matched line are the contents of the columns named in the 'type', 'colloc' and 'token' settings, in that order, joined by '/'; the token ends with the file and the line; without a 'colloc' setting the collocate is the type. A format that names a column the corpus does not have is refused at construction.", "quantifier": "all settings, column lists, formats and matches", "why_tests_cant": "all column lists and formats", "anchors": ["nephosem/core/terms.py:CorpusFormatter.__init__", "nephosem/core/terms.py:CorpusFormatter.get_type", "nephosem/core/terms.py:CorpusFormatter.get_token", "nephosem/core/terms.py:CorpusFormatter.get_colloc"]}
{"id": "C85", "title": "The boundary settings are honoured", "statement": "With the mechanism 'single' and either 'single-boundary-machine' or 'separator-line-machine' set, the lines that match that pattern (and not the line machine) are the sentence boundaries; with 'left-right' the corpus can be read.", "quantifier": "all settings, patterns and lines", "why_tests_cant": "all combinations of settings and all lines", "anchors": ["nephosem/core/terms.py:CorpusFormatter.__init__", "nephosem/core/terms.py:CorpusFormatter.separator_line_machine", "nephosem/core/handler.py:BaseHandler.update_one_file"]}
{"id": "C86", "title": "Asking for a column the corpus does not have is refused", "statement": "CorpusFormatter.get(match, column) gives the content of that column of the line, and raises for a column that the corpus does not have.", "quantifier": "all settings, columns and matches", "why_tests_cant": "all column lists and names", "anchors": ["nephosem/core/terms.py:CorpusFormatter.get"]}
{"id": "C87", "title": "Constructing a formatter does not change the caller's settings", "statement": "The settings passed to CorpusFormatter hold afterwards what they held before.", "quantifier": "all settings", "why_tests_cant": "all settings dictionaries", "anchors": ["nephosem/core/terms.py:CorpusFormatter.__init__"]}
{"id": "C88", "title": "A formatter with any of the line machines reads lines", "statement": "A formatter that was constructed, with whichever of the four line machines, can match every line of a corpus without an exception.", "quantifier": "all settings and lines", "why_tests_cant": "all settings and lines", "anchors": ["nephosem/core/terms.py:CorpusFormatter.__init__", "nephosem/core/terms.py:CorpusFormatter.match_line"]}
{"id": "C89", "title": "A type node has the type string it was built from", "statement": "TypeNode(type_str=s, type_fmt=f) has the type s; it is a ValueError if s and f have different numbers of parts or f has a part other than word, lemma, pos. A type string the formatter gives for a line can be made a node with the formatter's type format.", "quantifier": "all strings and formats", "why_tests_cant": "all strings and formats", "anchors": ["nephosem/core/terms.py:TypeNode.__init__", "nephosem/core/terms.py:TypeNode.type"]}
{"id": "C90", "title": "Nodes read from a line have the strings the formatter gives", "statement": "A type, token or item node made of a match and a formatter has the type, token and collocate string that the formatter gives for that match.", "quantifier": "all settings and matches", "why_tests_cant": "all formats and lines", "anchors": ["nephosem/core/terms.py:ItemNode.__init__", "nephosem/core/terms.py:ItemNode.to_type", "nephosem/core/terms.py:ItemNode.to_colloc", "nephosem/core/terms.py:TypeNode.type", "nephosem/core/terms.py:TokenNode.token"]}
{"id": "C91", "title": "A token string can be read back", "statement": "TokenNode(token_str=s, token_fmt=f) with a token s of the corpus and the token format f of the settings has the token s.", "quantifier": "all settings, files, lines", "why_tests_cant": "all paths, formats and strings", "anchors": ["nephosem/core/terms.py:TokenNode.__init__", "nephosem/core/terms.py:TokenNode.token"]}
{"id": "C92", "title": "Token identifiers are unique in a corpus", "statement": "Two different lines of the corpus never have the same token identifier.", "quantifier": "all corpora, paths, lines and column contents", "why_tests_cant": "all pairs of lines of all corpora", "anchors": ["nephosem/core/handler.py:BaseHandler.update_one_file", "nephosem/core/terms.py:CorpusFormatter.get_token"]}
{"id": "C93", "title": "Sampling a type node keeps n of its tokens", "statement": "TypeNode.sample(n) returns a node of the same type with n distinct tokens of the node in their order, raising if there are fewer; with another method, the first n.", "quantifier": "all nodes, n and random choices", "why_tests_cant": "all choices of the random generator", "anchors": ["nephosem/core/terms.py:TypeNode.sample"]}
{"id": "C94", "title": "Merging type nodes keeps every token once, in order", "statement": "TypeNode.merge of nodes built from the same type string and format gives a node of that type with all their tokens in order; nodes of different type or format are refused; no nodes give None. Formats name no component twice.", "quantifier": "all lists of nodes", "why_tests_cant": "lists of any length", "anchors": ["nephosem/core/terms.py:TypeNode.merge"]}
{"id": "C95", "title": "A saved type node can be loaded", "statement": "TypeNode.load of a file that TypeNode.save wrote gives a node with the same lemma, pos and tokens.", "quantifier": "all nodes", "why_tests_cant": "all nodes", "anchors": ["nephosem/core/terms.py:TypeNode.save", "nephosem/core/terms.py:TypeNode.load", "nephosem/core/terms.py:TokenNode.gen_token_from_json_data"]}
{"id": "C96", "title": "A query file gives the queries of its lines", "statement": "read_word_queries gives, in the order of the lines, nothing for blank and comment lines, the trimmed line if it has no tab, and otherwise the dictionary of its fields; a file that does not exist gives no query.", "quantifier": "all files and default keys", "why_tests_cant": "all files", "anchors": ["nephosem/utils.py:read_word_queries"]}
{"id": "C97", "title": "A query line with spellings gives every corpus its word and a default", "statement": "A line with tabs gives a dictionary with the word of every 'corpus:word' field (the last one for a repeated corpus), no other corpus, and a default word: the explicit one or the first word of the line.", "quantifier": "all lines and default keys", "why_tests_cant": "all lines", "anchors": ["nephosem/utils.py:read_word_queries"]}
{"id": "C98", "title": "The word of a query is that of the corpus or the default", "statement": "get_word_str of a query read from a file gives the word of the corpus asked for if it is listed and otherwise the default word, without an exception.", "quantifier": "all queries, corpora and options", "why_tests_cant": "all queries and options", "anchors": ["nephosem/utils.py:get_word_str", "nephosem/utils.py:read_word_queries"]}
{"id": "C99", "title": "Selecting the items of a word", "statement": "Vocab.select_items(word) gives exactly the items whose text before the last slash is the word, with their frequencies.", "quantifier": "all vocabularies and words", "why_tests_cant": "all vocabularies", "anchors": ["nephosem/core/vocab.py:Vocab.select_items"]}
{"id": "C100", "title": "Matching a vocabulary by a pattern", "statement": "Vocab.match(column, pattern) gives the items whose column matches, each once, from the most frequent to the least, alphabetically among equals; the columns are 'item' and 'freq'.", "quantifier": "all vocabularies and patterns", "why_tests_cant": "all vocabularies and patterns", "anchors": ["nephosem/core/vocab.py:Vocab.match", "nephosem/core/vocab.py:Vocab.regex_item"]}
{"id": "C101", "title": "Unknown attributes of a vocabulary are reported, and it can be copied", "statement": "Asking a vocabulary for an attribute it does not have raises AttributeError, as the standard copy and pickle protocols require, and copy.deepcopy gives a vocabulary with the same frequencies.", "quantifier": "all names and vocabularies", "why_tests_cant": "all names", "anchors": ["nephosem/core/vocab.py:Vocab.__getattr__", "nephosem/core/vocab.py:Vocab.deepcopy"]}
{"id": "C102", "title": "Selecting appearances of words", "statement": "Vocab.select_subsets gives for every word n of its appearances, or all if it has fewer.", "quantifier": "all vocabularies, words and n", "why_tests_cant": "all word lists", "anchors": ["nephosem/core/vocab.py:Vocab.select_subsets"]}
{"id": "C103", "title": "A type file lists the given types with their frequencies", "statement": "Vocab.make_type_file writes every given type once, with its frequency in the vocabulary or zero, and nothing else.", "quantifier": "all vocabularies and type lists", "why_tests_cant": "all lists", "anchors": ["nephosem/core/vocab.py:Vocab.make_type_file"]}
{"id": "C104", "title": "A concordance has one line per token that can be read back", "statement": "save_concordance writes one line per token, in order, with its string, left collocates, target and right collocates; if no cell contains a blank, tab or line break the cells can be read back from the file; if a token cannot be written the exception is raised and the lines before it are kept.", "quantifier": "all nodes and formats", "why_tests_cant": "all nodes and contexts", "anchors": ["nephosem/utils.py:save_concordance"]}
{"id": "C105", "title": "The recorded position of a collocate is its nearest", "statement": "read_token_colloc records for every token and every collocate of the vocabulary within the spans a position at which it stands, the nearest one if it occurs more than once.", "quantifier": "all type nodes, spans and vocabularies", "why_tests_cant": "all contexts with repetitions", "anchors": ["nephosem/models/typetoken.py:read_token_colloc"]}
{"id": "C106", "title": "Token weights are the weights of the type where the context occurs", "statement": "build_tc_weight_matrix gives, for a token and a context that occurs with it, the weight of the type of the token for that context, and zero elsewhere, whatever the order of the columns of the two matrices.", "quantifier": "all matrices", "why_tests_cant": "all pairs of matrices", "anchors": ["nephosem/models/typetoken.py:build_tc_weight_matrix"]}
{"id": "C107", "title": "Fitting a type vectorizer gives the counts of all types of the corpus", "statement": "TypeVectorizer(settings).fit(fnames) without vocabularies gives a matrix whose rows and columns are the types of the files, sorted, and whose entries are the numbers of co-occurrences within the spans, whatever the number of workers.", "quantifier": "all corpora, formats, spans, worker counts and interleavings", "why_tests_cant": "schedules and corpora", "anchors": ["nephosem/models/typetoken.py:TypeVectorizer.fit", "nephosem/models/typetoken.py:TypeVectorizer.build_vocab"]}
{"id": "C108", "title": "Fitting again depends on the files given only", "statement": "A second call of fit with other files gives what a new vectorizer gives for these files.", "quantifier": "all pairs of corpora", "why_tests_cant": "histories of calls", "anchors": ["nephosem/models/typetoken.py:TypeVectorizer.fit"]}
{"id": "C109", "title": "Frequency bounds restrict the fitted vocabulary", "statement": "Types and collocates that occur less than min_df or more than max_df are not in the matrix of fit; negative bounds are refused.", "quantifier": "all bounds and corpora", "why_tests_cant": "all bounds", "anchors": ["nephosem/models/typetoken.py:TypeVectorizer.__init__", "nephosem/models/typetoken.py:TypeVectorizer.fit"]}
{"id": "C110", "title": "A fitted matrix can be weighted", "statement": "vectorize(meas) on a fitted vectorizer gives the association measures of the fitted matrix; the corpus name given to the constructor is kept.", "quantifier": "all fitted vectorizers and measures", "why_tests_cant": "all measures and matrices", "anchors": ["nephosem/models/typetoken.py:TypeVectorizer.vectorize", "nephosem/specutils/mxcalc.py:compute_association", "nephosem/models/typetoken.py:TypeVectorizer.__init__"]}
{"id": "C111", "title": "Retrieving tokens gives one row per occurrence with signed distances", "statement": "TokenHandler(queries, settings).retrieve_tokens(fnames) gives a matrix with one row per occurrence of a query in the files; the entry of an occurrence and a collocate within the spans is the signed distance of its nearest occurrence, and other entries are absent; if nothing is found a ValueError is raised; whatever the number of workers.", "quantifier": "all corpora, queries, spans, worker counts and interleavings", "why_tests_cant": "schedules and corpora", "anchors": ["nephosem/models/typetoken.py:TokenHandler.retrieve_tokens", "nephosem/models/typetoken.py:TokenHandler.update_one_match", "nephosem/specutils/mxutils.py:transform_nodes_to_matrix"]}
{"id": "C112", "title": "A column vocabulary of token retrieval only removes columns", "statement": "Retrieving tokens with a column vocabulary gives the matrix without it, restricted to the columns in the vocabulary; the entries of the remaining columns do not change.", "quantifier": "all corpora, queries, vocabularies and interleavings", "why_tests_cant": "all vocabularies", "anchors": ["nephosem/models/typetoken.py:TokenHandler.retrieve_tokens", "nephosem/models/typetoken.py:TokenHandler.update_one_match"]}
{"id": "C113", "title": "A TypeToken model is built step by step", "statement": "The methods build_vocab, build_col_freq, compute_association, retrieve_tokens, build_token_weights and build_token_vectors of a TypeToken compute and keep the vocabulary, the frequencies, the measures, the tokens, their weights and vectors, and select_types selects from the vocabulary.", "quantifier": "all histories of method calls", "why_tests_cant": "histories of calls", "anchors": ["nephosem/models/typetoken.py:TypeToken.build_vocab", "nephosem/models/typetoken.py:TypeToken.build_col_freq", "nephosem/models/typetoken.py:TypeToken.compute_association", "nephosem/models/typetoken.py:TypeToken.retrieve_tokens", "nephosem/models/typetoken.py:TypeToken.build_token_weights", "nephosem/models/typetoken.py:TypeToken.build_token_vectors", "nephosem/models/typetoken.py:TypeToken.select_types"]}
{"id": "C114", "title": "A TypeToken model keeps similarities, distances and ranks", "statement": "compute_similarity, compute_distance and compute_simrank of a TypeToken compute from the given matrix or, without one, from the one computed before, return the result, and keep it until it is computed again.", "quantifier": "all histories of method calls", "why_tests_cant": "histories of calls", "anchors": ["nephosem/models/typetoken.py:TypeToken.compute_similarity", "nephosem/models/typetoken.py:TypeToken.compute_distance", "nephosem/models/typetoken.py:TypeToken.compute_simrank"]}
{"id": "C115", "title": "The position matrices of types have one row per token", "statement": "TypeToken.make_token_colloc gives for every type a matrix with one row per token, sorted, whose columns are the vocabulary or without one the collocates found, sorted, and whose entries are the positions of the collocates within the spans.", "quantifier": "all type nodes, spans and vocabularies", "why_tests_cant": "all nodes", "anchors": ["nephosem/models/typetoken.py:TypeToken.make_token_colloc", "nephosem/models/typetoken.py:read_token_colloc"]}
{"id": "C116", "title": "A token vectorizer finds the tokens of its concepts", "statement": "TokenVectorizer.retrieve_tokens gives for every concept the nodes of its variants with the tokens found in the files, from which generate_vectors computes vectors.", "quantifier": "all corpora, concepts and interleavings", "why_tests_cant": "schedules and corpora", "anchors": ["nephosem/models/typetoken.py:TokenVectorizer.retrieve_tokens", "nephosem/models/typetoken.py:TokenVectorizer.generate_vectors"]}
{"id": "C117", "title": "Patterns of a GraphML file are read one by one", "statement": "PatternGraph.read_graphml gives one pattern for every graph element of a GraphML file, in order, each read from its own element together with the header, whatever the layout of the file.", "quantifier": "all GraphML files", "why_tests_cant": "all layouts of files", "anchors": ["nephosem/core/graph.py:PatternGraph.read_graphml"]}
{"id": "C118", "title": "Defaults of a GraphML file apply to the elements they are declared for", "statement": "A default declared by a key for nodes is the condition of every node that has none of its own, and a default declared for edges is the condition of every edge that has none of its own; nothing else changes.", "quantifier": "all GraphML files and graphs", "why_tests_cant": "all keys and graphs", "anchors": ["nephosem/core/graph.py:PatternGraph.read_graphml"]}
{"id": "C119", "title": "Macros of an XML file are read as written", "statement": "MacroGraph.read_xml gives one macro for every target-feature-macro of the file, in order, with its number, the pattern, target and feature node and descriptions it names, and with the attributes, groups and connectors of the formats in the file; the macros can be matched.", "quantifier": "all macro files and patterns", "why_tests_cant": "all files", "anchors": ["nephosem/core/graph.py:MacroGraph.read_xml", "nephosem/core/graph.py:MacroGraph.parse_macro_xml", "nephosem/core/graph.py:MacroGraph.__init__"]}
{"id": "C120", "title": "Conditions can be given as strings with named groups", "statement": "PatternGraph(nodes, edges) with strings of named conditions joined by a slash gives the pattern whose nodes and edges have these names as attributes and the expressions without the names as conditions.", "quantifier": "all strings of conditions, nodes and edges", "why_tests_cant": "all strings", "anchors": ["nephosem/core/graph.py:PatternGraph.__init__"]}
{"id": "C121", "title": "Patterns and macros are read from a table", "statement": "PatternGraph.read_csv gives one pattern per row, MacroGraph.read_csv one macro per row with node 1 as target; patterns of a table can be used by the macros of an XML file.", "quantifier": "all tables", "why_tests_cant": "all tables", "anchors": ["nephosem/core/graph.py:PatternGraph.read_csv", "nephosem/core/graph.py:MacroGraph.read_csv"]}
{"id": "C122", "title": "Distance matrices hold the named distance of every pair of items", "statement": "compute_distance gives, for each documented metric, a matrix with the items on both sides whose entries are the named distance of the two rows; Euclidean and Manhattan distances are metrics; the cosine distance is one minus the cosine similarity; axis 1 treats columns; other metrics and axes are refused.", "quantifier": "all matrices with at least one row and column, all metrics and axes", "why_tests_cant": "all matrices; the laws of a metric", "anchors": ["nephosem/specutils/mxcalc.py:compute_distance", "nephosem/specutils/mxcalc.py:calc_distance", "nephosem/specutils/mxcalc.py:compute_cosine"]}
{"id": "C123", "title": "Association without frequencies uses the sums of the matrix", "statement": "calc_association without frequencies takes the sums of the rows and columns as frequencies and their total as the total; compute_ppmi without column frequencies takes the sums of the columns.", "quantifier": "all matrices and measures", "why_tests_cant": "all matrices", "anchors": ["nephosem/specutils/mxcalc.py:calc_association", "nephosem/specutils/mxcalc.py:compute_ppmi"]}
{"id": "C124", "title": "Single scores: entropy, mutual information, pairwise association", "statement": "entropy gives the Shannon entropy of a distribution; calc_mi gives the pointwise mutual information of a table in bits; pairwise_association gives the score that compute_association gives for the same table and every measure it knows.", "quantifier": "all distributions, tables and measures", "why_tests_cant": "real-valued functions", "anchors": ["nephosem/specutils/mxcalc.py:entropy", "nephosem/specutils/mxcalc.py:calc_mi", "nephosem/specutils/mxcalc.py:pairwise_association"]}
{"id": "C125", "title": "Indexing by names gives the entries of the named rows and columns", "statement": "m[row, column], m[row], and slices of names give the entries of the named rows and columns, in an array of one dimension for each name left open, whether the matrix is stored sparse or dense; unknown names and other kinds of index are refused.", "quantifier": "all matrices and indices", "why_tests_cant": "all matrices, storages and indices", "anchors": ["nephosem/core/matrix.py:TypeTokenMatrix.__getitem__"]}
{"id": "C126", "title": "Printing a matrix shows its upper left part", "statement": "print_matrix(n_rows, n_cols) shows the entries of the first rows and columns with their names, and dots where more follow.", "quantifier": "all matrices and numbers of rows and columns", "why_tests_cant": "all matrices", "anchors": ["nephosem/core/matrix.py:TypeTokenMatrix.print_matrix"]}
{"id": "C127", "title": "describe gives the share of entries that are not zero", "statement": "describe gives the numbers of rows and columns and the percentage of entries that are not zero.", "quantifier": "all matrices", "why_tests_cant": "all matrices and storages", "anchors": ["nephosem/core/matrix.py:TypeTokenMatrix.describe"]}
{"id": "C128", "title": "The undirected graph of a sentence has one node per word and one edge per dependency", "statement": "Graph(sentence) has one node for each word and root, and each word is joined to its head by its own relation; lines that do not have six fields are skipped; unknown heads and numbers that are not integers are refused.", "quantifier": "all sentences", "why_tests_cant": "all sentences and heads", "anchors": ["nephosem/core/graph.py:Graph.build_graph_raw", "nephosem/core/graph.py:Graph.add_edge"]}
{"id": "C129", "title": "The older matchers find the paths and targets they are given", "statement": "Graph.match(path) gives the node sequences of the sentence graph that fit the template; SentenceGraph.match_target_feature records the matches of a macro.", "quantifier": "all sentences, templates and macros", "why_tests_cant": "all graphs and templates", "anchors": ["nephosem/core/graph.py:Graph.match", "nephosem/specutils/deputils.py:match_graph", "nephosem/specutils/deputils.py:match_path", "nephosem/core/graph.py:SentenceGraph.match_target_feature"]}
{"id": "C130", "title": "Comparing a matrix with a number marks exactly the entries that satisfy the comparison", "statement": "m < k, m <= k, m > k and m >= k give a matrix of the same names in which exactly the entries that satisfy the comparison are True, for sparse and dense storage; anything but an int or float on the right is refused.", "quantifier": "all matrices, comparisons and numbers", "why_tests_cant": "all matrices, storages and numbers, with unstored entries", "anchors": ["nephosem/core/matrix.py:TypeTokenMatrix.__lt__", "nephosem/core/matrix.py:TypeTokenMatrix.__ge__"]}
{"id": "C131", "title": "multiply is the product entry by entry", "statement": "a.multiply(b) gives a matrix with the names of a in which each entry is the product of the entries of a and b under the same names.", "quantifier": "all pairs of matrices and storages", "why_tests_cant": "all pairs of matrices and storages", "anchors": ["nephosem/core/matrix.py:TypeTokenMatrix.multiply"]}
{"id": "C132", "title": "Names are found where they are now", "statement": "After any history of creating, indexing, selecting, transposing, copying and renaming in place, looking up an entry by names reads the entry at the present position of these names.", "quantifier": "all programs over any number of matrices", "why_tests_cant": "all histories of any length", "anchors": ["nephosem/core/matrix.py:TypeTokenMatrix.item2rowid", "nephosem/core/matrix.py:TypeTokenMatrix.item2colid", "nephosem/core/matrix.py:TypeTokenMatrix.submatrix"]}
{"id": "C133", "title": "A vocabulary and its table are two views of one mapping", "statement": "A vocabulary made from a table has, for each item, the frequency in the last row of that item, and nothing else; a vocabulary made from the table of another equals it and has the same table; items() pairs keys() with values(); tables without the two columns, and data of other kinds, are refused.", "quantifier": "all tables and vocabularies", "why_tests_cant": "all tables, also with repeated rows, and all vocabularies", "anchors": ["nephosem/core/vocab.py:Vocab.dataframe", "nephosem/core/vocab.py:Vocab._gen_freq_dict_by_dataframe", "nephosem/core/vocab.py:Vocab.items"]}
{"id": "C134", "title": "Printing a vocabulary shows its extremes", "statement": "A vocabulary of at most seven items is printed in full; of a larger one six different items are printed with their frequencies, three such that no other item is more frequent and three such that no other is less frequent, in descending order.", "quantifier": "all vocabularies", "why_tests_cant": "all sizes, frequencies and ties", "anchors": ["nephosem/core/vocab.py:Vocab.__repr__"]}
{"id": "C135", "title": "No choice of k items covers more of the corpus than the first k", "statement": "The frequencies of v[:k] add up to at least those of any other k items; with non-negative frequencies also to at least those of any fewer.", "quantifier": "all vocabularies, k and choices of items", "why_tests_cant": "all choices of k items", "anchors": ["nephosem/core/vocab.py:Vocab.__getitem__", "nephosem/core/vocab.py:Vocab.sum_freq"]}
{"id": "C136", "title": "Vocabularies can be cut in steps", "statement": "v[:m][:k] is v[:min(m,k)], v[m:][k:] is v[m+k:], v[m:][:k] is v[:m+k][m:]; the frequencies and the sizes of v[:k] and v[k:] add up to those of v; v[:] has all items.", "quantifier": "all vocabularies and non-negative bounds", "why_tests_cant": "all vocabularies and bounds", "anchors": ["nephosem/core/vocab.py:Vocab.__getitem__"]}
{"id": "C137", "title": "Rows and columns can be selected in steps", "statement": "Selecting from a selection of a sparse matrix gives the same names, order and entries as selecting once what both requests ask for, and nothing (None) in the same cases; rows first, columns first or both at once make no difference.", "quantifier": "all sparse matrices and all requests without repeated names", "why_tests_cant": "all matrices, requests and orders", "anchors": ["nephosem/core/matrix.py:TypeTokenMatrix.submatrix"]}
{"id": "C138", "title": "Transposing commutes with selecting, cutting off and merging", "statement": "For sparse matrices: selecting from the transposed matrix gives the transposed selection, cutting off and transposing can be exchanged, and the merge of transposed count matrices is the transposed merge.", "quantifier": "all sparse matrices (for merging: of integers, the first not all zero), all requests without repetition, all comparisons implemented", "why_tests_cant": "all matrices and operations", "anchors": ["nephosem/core/matrix.py:TypeTokenMatrix.transpose", "nephosem/core/matrix.py:TypeTokenMatrix.submatrix", "nephosem/core/matrix.py:TypeTokenMatrix.merge", "nephosem/core/matrix.py:TypeTokenMatrix.multiply"]}
{"id": "C139", "title": "Count matrices can be merged in any order", "statement": "Merging sparse count matrices by name: m.merge(t) and t.merge(m) have the same names in the same order and the same entries; (m.merge(t)).merge(w) and m.merge(t.merge(w)) too; the total of a merge is the sum of the totals.", "quantifier": "all sparse integer matrices no two of which, being merged, are both empty; grouping: with non-negative entries", "why_tests_cant": "all matrices and overlaps of names", "anchors": ["nephosem/core/matrix.py:TypeTokenMatrix.merge", "nephosem/core/matrix.py:TypeTokenMatrix.sum"]}
{"id": "C140", "title": "Cut-offs compose", "statement": "Keeping the entries above k and of these the entries above k' is keeping the entries above the larger of the two; repeating a cut-off changes nothing; a higher cut-off keeps no entry that a lower one drops, and changes none.", "quantifier": "all sparse matrices and numbers", "why_tests_cant": "all matrices and pairs of cut-offs", "anchors": ["nephosem/core/matrix.py:TypeTokenMatrix.__gt__", "nephosem/core/matrix.py:TypeTokenMatrix.multiply"]}
{"id": "C141", "title": "A corpus can be counted in parts", "statement": "If the files of a corpus are divided into two lists, the counts of the parts add up to those of the whole: merging the parts' matrices by name gives the matrix of the whole with the same names in the same order, a part without any pair (None) changes nothing, and the frequencies in the parts' frequency lists add up to those in the list of the whole.", "quantifier": "all corpora, divisions, spans, vocabularies built from frequency dicts, worker counts and interleavings of the three calls", "why_tests_cant": "three independent parallel calls, each with its own schedule", "anchors": ["nephosem/models/typetoken.py:ColFreqHandler.build_col_freq", "nephosem/models/typetoken.py:ItemFreqHandler.build_item_freq", "nephosem/core/matrix.py:TypeTokenMatrix.merge"]}
{"id": "C142", "title": "Wider spans never lower a count", "statement": "If neither span becomes smaller, no entry of the matrix of build_col_freq for the same files and vocabularies becomes smaller.", "quantifier": "all corpora, pairs of spans and vocabularies built from frequency dicts", "why_tests_cant": "all segment lengths and pairs of spans", "anchors": ["nephosem/models/typetoken.py:ColFreqHandler.build_col_freq", "nephosem/core/handler.py:BaseHandler.update_one_file"]}
{"id": "C143", "title": "The counts of a type are the sum over its tokens", "statement": "For a file read with the same spans and no column filter, the co-occurrence count of t and c is the number of occurrences of c in the contexts of the tokens of t.", "quantifier": "all files, spans and types", "why_tests_cant": "relates two handlers for all segment lengths and spans", "anchors": ["nephosem/models/typetoken.py:ColFreqHandler.update_one_match", "nephosem/models/typetoken.py:TokenHandler.update_one_match", "nephosem/core/handler.py:BaseHandler.update_one_file"]}
{"id": "C144", "title": "There is one row for every occurrence the frequency list counts", "statement": "The matrix of retrieve_tokens has as many rows as the frequencies of the queries, in the frequency list of the same files, add up to; in each file each query gets as many tokens as the file's frequency list says.", "quantifier": "all corpora, queries, spans, worker counts and interleavings", "why_tests_cant": "relates two parallel calls", "anchors": ["nephosem/models/typetoken.py:TokenHandler.retrieve_tokens", "nephosem/models/typetoken.py:ItemFreqHandler.build_item_freq"]}
{"id": "C145", "title": "Selecting and scoring may be exchanged", "statement": "compute_association of a selection of rows and columns, with the same marginal frequencies and total, is the same selection of compute_association of the whole matrix: same names, same stored entries, same scores.", "quantifier": "all matrices stored in a compressed sparse format, frequency dicts, totals, measures and selections by lists of different names", "why_tests_cant": "all selections of all matrices and eleven measures", "anchors": ["nephosem/specutils/mxcalc.py:compute_association", "nephosem/core/matrix.py:TypeTokenMatrix.submatrix"]}
{"id": "C146", "title": "Scores do not depend on which side is the row", "statement": "Scoring the transposed matrix with the row and column frequencies exchanged gives the transposed scores for pmi, ppmi, chisq, zscore and dice; for deltap it gives the transposed deltap_coll scores and the other way round.", "quantifier": "all matrices stored in a compressed sparse format, frequency dicts and totals", "why_tests_cant": "all real valued tables", "anchors": ["nephosem/specutils/mxcalc.py:compute_association", "nephosem/specutils/mxcalc.py:calc_deltap", "nephosem/specutils/mxcalc.py:calc_deltap_coll", "nephosem/core/matrix.py:TypeTokenMatrix.transpose"]}
{"id": "C147", "title": "A more frequent pair is not less associated", "statement": "Of two pairs whose items are equally frequent in the same corpus, the more frequent pair has no lower ppmi and a higher z-score, Dice coefficient, and delta P in both directions.", "quantifier": "all pair frequencies, marginal frequencies and totals", "why_tests_cant": "monotonicity over the reals", "anchors": ["nephosem/specutils/mxcalc.py:calc_ppmi", "nephosem/specutils/mxcalc.py:calc_zscore", "nephosem/specutils/mxcalc.py:calc_dice", "nephosem/specutils/mxcalc.py:calc_deltap", "nephosem/specutils/mxcalc.py:calc_deltap_coll"]}
{"id": "C148", "title": "Scores of a proportionally larger corpus", "statement": "If all four cells of a table are multiplied by k, Dice, delta P in both directions and the log ratio stay the same (and fail for the same tables), chi square and the log likelihood are multiplied by k and the z-score by the square root of k.", "quantifier": "all tables and positive k", "why_tests_cant": "scaling law over the reals", "anchors": ["nephosem/specutils/mxcalc.py:calc_dice", "nephosem/specutils/mxcalc.py:calc_deltap", "nephosem/specutils/mxcalc.py:calc_deltap_coll", "nephosem/specutils/mxcalc.py:calc_log_ratio", "nephosem/specutils/mxcalc.py:calc_chisq", "nephosem/specutils/mxcalc.py:calc_lik", "nephosem/specutils/mxcalc.py:calc_zscore"]}
{"id": "C149", "title": "PMI rises with the pair frequency and does not depend on corpus size", "statement": "Of two pairs whose items are equally frequent in the same corpus, the more frequent pair has the higher PMI, and PMI stays the same if all counts are multiplied by k.", "quantifier": "all positive pair frequencies, marginal frequencies, totals and k", "why_tests_cant": "the exceptional values are isolated reals", "anchors": ["nephosem/specutils/mxcalc.py:calc_pmi", "nephosem/specutils/mxcalc.py:adjust_val"]}
{"id": "C150", "title": "The older template matcher finds the same matches", "statement": "tree_match of the older template classes (nephosem.deprel) adds to the template one record for each way of mapping the template into the sentence that respects labels and relations, each once, and they are the records that the current matcher makes of the same sentence and template.", "quantifier": "all sentence graphs, templates and regular expressions", "why_tests_cant": "all trees and mappings between them", "anchors": ["nephosem/deprel/basic.py:SentenceGraph.match_feature", "nephosem/deprel/basic.py:tree_match", "nephosem/core/graph.py:SentenceGraph.match_pattern"]}
{"id": "C151", "title": "Matching a template from its target finds the same matches", "statement": "match_target_feature of the older template classes, which begins at the words that match the target and walks along the template, records for a template exactly the matches that match_feature records.", "quantifier": "all sentence graphs, templates, targets and regular expressions", "why_tests_cant": "all templates, positions of the target and sentences", "anchors": ["nephosem/deprel/basic.py:SentenceGraph.match_target_feature", "nephosem/deprel/basic.py:match_sub_template"]}
{"id": "C152", "title": "The older classes build the graph of a sentence from its lines", "statement": "build_graph of the older SentenceGraph makes one labelled node for each word of the sentence, a node without label for each number that occurs only as a head, and for each word an edge from its head to it that bears the relation. Lines that do not match the line format are ignored, a sentence whose lines all do not match gives an empty graph, a sentence without any line is a ValueError, and so is a number that cannot be read.", "quantifier": "all sentences whose words have different numbers", "why_tests_cant": "all sentences and line formats", "anchors": ["nephosem/deprel/basic.py:SentenceGraph.build_graph"]}
{"id": "C153", "title": "Counts are bounded by frequencies and spans", "statement": "In a matrix built by build_col_freq, the counts of a type with any different collocates add up to at most its frequency (as given by build_item_freq for the same files) times the sum of the spans, so that no count is larger; and the counts of a collocate add up to at most the number of its occurrences times the sum of the spans.", "quantifier": "all corpora, formats, spans, vocabularies, worker numbers and schedules without killed workers", "why_tests_cant": "all corpora and schedules", "anchors": ["nephosem/models/typetoken.py:ColFreqHandler.build_col_freq", "nephosem/models/typetoken.py:ItemFreqHandler.build_item_freq"]}
{"id": "C154", "title": "The order of the files does not matter", "statement": "build_col_freq gives the same matrix, with the same names in the same order, and build_item_freq the same frequencies, for the same files in any other order.", "quantifier": "all corpora and orders, all worker numbers and schedules without killed workers", "why_tests_cant": "all permutations of all corpora", "anchors": ["nephosem/models/typetoken.py:ColFreqHandler.build_col_freq", "nephosem/models/typetoken.py:ItemFreqHandler.build_item_freq"]}
{"id": "C155", "title": "A token vector depends on its own contexts only", "statement": "compute_token_vectors with addition gives a token the same vector in any two calls in which the token has the same weights and the contexts that have a non-zero weight for it have the same second-order values: other tokens, contexts of weight 0, and the order of contexts and features do not matter, with and without normalisation.", "quantifier": "all csr matrices with the same contexts on both sides, all tokens, features and norms", "why_tests_cant": "all matrices and tokens", "anchors": ["nephosem/specutils/mxcalc.py:compute_token_vectors"]}
{"id": "C156", "title": "Token vectors are linear in the weights", "statement": "Without normalisation the vector of a token whose weights are a combination of the weights of two tokens is the same combination of their vectors; with l1 or l2 normalisation tokens whose weights differ by a positive factor get the same vector.", "quantifier": "all csr matrices with the same contexts on both sides, all tokens, factors and features", "why_tests_cant": "all real weights", "anchors": ["nephosem/specutils/mxcalc.py:compute_token_vectors"]}
{"id": "C157", "title": "Similarity and distance of two items depend on these two only", "statement": "compute_cosine and compute_distance give two items the same value in any two matrices where these two have the same entries: other rows, and columns where both are 0, do not matter; so selecting rows before or after gives the same values.", "quantifier": "all matrices, pairs of rows and metrics", "why_tests_cant": "all matrices", "anchors": ["nephosem/specutils/mxcalc.py:compute_cosine", "nephosem/specutils/mxcalc.py:compute_distance", "nephosem/core/matrix.py:TypeTokenMatrix.submatrix"]}
{"id": "C158", "title": "A matrix written as CSV is read back", "statement": "read_csv of the file written by to_csv gives a matrix with the same row and column names and the same entries.", "quantifier": "all matrices and arguments of pandas", "why_tests_cant": "all matrices; what pandas does is a parameter", "anchors": ["nephosem/core/matrix.py:TypeTokenMatrix.to_csv", "nephosem/core/matrix.py:TypeTokenMatrix.read_csv", "nephosem/core/matrix.py:TypeTokenMatrix.from_dataframe"]}
{"id": "C159", "title": "A path template is printed as the line it was read from", "statement": "DepRelManager.read_template gives one template per line of the file, and a template is printed as its line without the white space around it.", "quantifier": "all files and lines", "why_tests_cant": "all lines", "anchors": ["nephosem/deprel/dephandler.py:DepRelManager.read_template", "nephosem/deprel/basic.py:PathTemplate.__str__"]}
{"id": "C160", "title": "The older manager records the matches of every file", "statement": "After DepRelManager.build_dep_rel the features hold the matches of all files, with one and with several processors.", "quantifier": "all lists of files and features", "why_tests_cant": "all corpora", "anchors": ["nephosem/deprel/dephandler.py:DepRelManager.build_dep_rel", "nephosem/deprel/dephandler.py:DepRelManager.do_job_single", "nephosem/deprel/dephandler.py:update_dep_rel_caller"]}
{"id": "C161", "title": "Merging the results of sub-processes loses and repeats no match", "statement": "DepRelManager.merge_results adds to every feature its matches of every result file, each once and in order, removes the result files only, and merging again changes nothing; a result file with more features than the manager is an IndexError, after the files were removed.", "quantifier": "all directories and lists of features", "why_tests_cant": "all numbers of files and matches", "anchors": ["nephosem/deprel/dephandler.py:DepRelManager.merge_results"]}
{"id": "C162", "title": "Saving stores the large arrays apart, and only these", "statement": "save without naming attributes writes, beside the file of the object, one file for every array with at least sep_limit numbers and four for every sparse matrix with at least sep_limit stored numbers, in the object and in the objects inside it, except what is to be ignored; the file of the object holds exactly the rest.", "quantifier": "all trees of objects, limits and ignored names, every save without an exception", "why_tests_cant": "all objects and nestings", "anchors": ["nephosem/utils.py:SaveLoad.save", "nephosem/utils.py:SaveLoad._smart_save", "nephosem/utils.py:SaveLoad._save_specials"]}
{"id": "C163", "title": "An object with a missing file is not loaded", "statement": "If any one of the files written by save is missing, load raises; it never gives an object of which a part is missing.", "quantifier": "all trees of objects, limits and ignored names, every file", "why_tests_cant": "all objects and files", "anchors": ["nephosem/utils.py:SaveLoad.load", "nephosem/utils.py:SaveLoad._load_specials"]}
{"id": "C164", "title": "The older manager processes each file once", "statement": "When DepRelManager.process(fnames) returns, every file of the list has been processed, each exactly as often as it is listed, however the worker threads are scheduled.", "quantifier": "all lists of files, numbers of workers, queue factors and interleavings of the threads", "why_tests_cant": "all interleavings and lists", "anchors": ["nephosem/deprel/dephandler.py:DepRelManager.process", "nephosem/deprel/dephandler.py:DepRelManager._worker_loop", "nephosem/deprel/dephandler.py:DepRelManager._job_producer"]}
{"id": "C165", "title": "No false token is ever retrieved", "statement": "Whatever the schedule of the worker processes, even if some of them get no file or die: a matrix returned by retrieve_tokens has only rows of occurrences of the queries in the corpus, each at most once, and each entry of such a row is right: absent if the collocate is not kept within the spans, otherwise the greatest of its signed ranks.", "quantifier": "all corpora, queries, numbers of workers, interleavings and deaths of workers", "why_tests_cant": "all interleavings and corpora", "anchors": ["nephosem/models/typetoken.py:TokenHandler.retrieve_tokens", "nephosem/models/typetoken.py:TokenHandler.process_right_window"]}
{"id": "C166", "title": "A malformed line of a dependency corpus is never ignored", "statement": "If a word line of a file has an index of the word or of its head that is no number, lacks a column, or edge-attr is not set, then the handler of dependencies raises for that file instead of building relations from it.", "quantifier": "all files, lines, settings and patterns", "why_tests_cant": "all files; the regular expressions are parameters", "anchors": ["nephosem/models/deprel.py:DepRelHandler.build_dependency", "nephosem/core/graph.py:SentenceGraph.build_graph"]}
{"id": "C167", "title": "A vocabulary saved in the default format is loaded unchanged", "statement": "Saving a vocabulary in the default (JSON) format and loading the file with the same encoding gives a vocabulary with the same items, the same frequencies and the same order, whatever characters the items contain; saving fails exactly when the encoding cannot write the text.", "quantifier": "all vocabularies, item strings (quotes, line breaks, control and other characters included) and encodings", "why_tests_cant": "all item strings and dictionaries; a test tries some strings", "anchors": ["nephosem/utils.py:save_dict_json", "nephosem/utils.py:load_dict_json", "nephosem/core/vocab.py:Vocab.save", "nephosem/core/vocab.py:Vocab.load"]}
{"id": "C168", "title": "A vocabulary file that was not written to its end is not loaded as another vocabulary", "statement": "If a saved vocabulary file lacks some of its end, for instance because the disk was full or the program was stopped, then loading it fails; it never gives a vocabulary with missing items or other frequencies.", "quantifier": "all vocabularies, both formats and every proper beginning of the file", "why_tests_cant": "all vocabularies and all places where the file may end", "anchors": ["nephosem/utils.py:save_dict_json", "nephosem/utils.py:load_dict_json", "nephosem/utils.py:save_dict_plain", "nephosem/utils.py:load_dict_plain", "nephosem/core/vocab.py:Vocab.load"]}
{"id": "C169", "title": "Co-occurrence counts do not depend on the machine", "statement": "The same call to count co-occurrences, on the same files with the same vocabularies and settings, gives the same rows, columns and counts on machines with different numbers of processors and for different numbers of workers asked for.", "quantifier": "all files, vocabularies, spans, numbers of workers and processors, and interleavings", "why_tests_cant": "a test runs on one machine", "anchors": ["nephosem/core/handler.py:Paralleler.__init__", "nephosem/core/handler.py:Paralleler.process", "nephosem/models/typetoken.py:ColFreqHandler.build_col_freq", "nephosem/models/typetoken.py:ColFreqHandler._process_results"]}
{"id": "C170", "title": "The older committee selection keeps dissimilar committees and drops only similar ones", "statement": "Given clusters in order, the selection returns clusters of the list in the same order with their own vectors; the first cluster is kept; two kept clusters are less similar than the threshold; each dropped one reaches the threshold with a kept one earlier in the list; the result is the only one with these properties. It fails exactly if there is no cluster or one has no vector.", "quantifier": "all lists of clusters, similarities and thresholds", "why_tests_cant": "all orders and similarities; greedy choices interact", "anchors": ["nephosem/models/cbc.py:cbc_step3_old"]}
{"id": "C171", "title": "The clusters of similar words partition them and are scored by average similarity", "statement": "Given the words similar to an element, their pairwise similarities and one cluster label per word, cluster_similar_elements returns the groups of words with the same label; every word is in exactly one; a cluster of one word has score -1, a larger one its average pairwise similarity, weighted by its size as the metric argument says.", "quantifier": "all lists of similar words, symmetric similarities, labellings and the three metrics", "why_tests_cant": "all similarities and labellings; the score goes through condensed indices, local and global numberings", "anchors": ["nephosem/models/cbc.py:cluster_similar_elements", "nephosem/models/cbc.py:score_cluster", "nephosem/models/cbc.py:sub2glb"]}
{"id": "C172", "title": "A JSON vocabulary written by another program is read as JSON says", "statement": "Vocab.load accepts every JSON object of integers, whatever its white space and however the names are spelled (plain characters, short escapes including the slash, four hexadecimal digits in either case); the frequency of an item is the last value given to its name and an object without repeated names gives exactly its members in order; an empty object is an empty vocabulary; text after the object or a byte order mark before it is an error.", "quantifier": "all objects of integers in all layouts and spellings", "why_tests_cant": "the layouts and spellings of a file are unbounded", "anchors": ["nephosem/core/vocab.py:Vocab.load", "nephosem/utils.py:load_dict_json"]}
{"id": "C173", "title": "Counts by coarser names are the sums of counts by finer names", "statement": "If a corpus is counted twice, once with finer names for its lines (for instance lemma/pos) and once with coarser ones (lemma), with the same files and spans and vocabularies that ask for the same lines, then each entry of the coarser matrix is the sum of the entries of the finer matrix over the rows and columns with these names, both find nothing together, and each frequency of the coarser list is the sum of the frequencies of the finer list.", "quantifier": "all files, spans, formatters of which one is coarser, vocabularies and numbers of processes", "why_tests_cant": "the groups of names that fall together are unbounded and no test compares two settings", "anchors": ["nephosem/models/typetoken.py:ItemFreqHandler.build_item_freq", "nephosem/models/typetoken.py:ColFreqHandler.build_col_freq"]}
{"id": "C174", "title": "Left and right are treated alike", "statement": "Counting the same files read backwards with the left and the right span exchanged gives the same co-occurrence matrix.", "quantifier": "all files, spans, formatters and vocabularies", "why_tests_cant": "the effect shows only in sentences shorter than a span", "anchors": ["nephosem/models/typetoken.py:ColFreqHandler.build_col_freq", "nephosem/models/typetoken.py:ColFreqHandler.update_one_match"]}
{"id": "C175", "title": "A vocabulary saved and loaded with default arguments comes back", "statement": "Vocab.load(name) after v.save(name) gives a vocabulary with the same items, frequencies and order, whatever the items and the encoding of v are.", "quantifier": "all vocabularies, encodings, file names and contents of the disk", "why_tests_cant": "the items range over all texts and the encodings over all names; tests use ASCII items in UTF-8", "anchors": ["nephosem/core/vocab.py:Vocab.save", "nephosem/core/vocab.py:Vocab.load", "nephosem/utils.py:save_dict_json", "nephosem/utils.py:load_dict_json"]}
{"id": "C176", "title": "A save that fails leaves the file as it was", "statement": "If Vocab.save raises an exception (unknown format, unknown encoding, text that cannot be encoded), every file has the content it had before.", "quantifier": "all vocabularies, formats, encodings, file names and contents of the disk", "why_tests_cant": "failures are rarely tested and depend on the items of the vocabulary", "anchors": ["nephosem/core/vocab.py:Vocab.save", "nephosem/utils.py:save_dict_json", "nephosem/utils.py:save_dict_plain"]}
{"id": "C177", "title": "A vocabulary file of one format is not taken for one of the other", "statement": "A file that was saved as 'json' is refused by Vocab.load with 'plain' or 'txt', and a file saved as 'plain' or 'txt' is refused by Vocab.load with 'json'.", "quantifier": "all vocabularies, encodings and file names", "why_tests_cant": "whether a text is valid in the other format depends on the items, of which there are infinitely many", "anchors": ["nephosem/core/vocab.py:Vocab.save", "nephosem/core/vocab.py:Vocab.load", "nephosem/utils.py:load_dict_json", "nephosem/utils.py:load_dict_plain"]}
{"id": "C178", "title": "drop_zero_rows and drop_zero_cols drop exactly the zero rows and columns", "statement": "The result of drop_zero_rows (drop_zero_cols) has exactly the rows (columns) with a value other than zero, in their order, with all their values.", "quantifier": "all sparse matrices of every format and shape", "why_tests_cant": "which rows are kept depends on the storage format and on stored zeros, not only on the values", "anchors": ["nephosem/core/matrix.py:SparseMatrix.drop_zero_rows", "nephosem/core/matrix.py:SparseMatrix.drop_zero_cols", "nephosem/core/matrix.py:TypeTokenMatrix.drop_zero_rows"]}
{"id": "C179", "title": "A rank is one more than the number of more similar items", "statement": "In compute_simrank(m) the rank of a column in a row is one more than the number of columns with a higher similarity (lower, with reverse=True); it depends on the order of the similarities only, and most_similar gives the items with the best ranks.", "quantifier": "all dense matrices, both directions, all behaviours of the sorting routine on ties", "why_tests_cant": "ranks are computed by scattering positions of a sort whose treatment of ties is unspecified; a few matrices with distinct values do not show it", "anchors": ["nephosem/specutils/mxcalc.py:compute_simrank", "nephosem/core/matrix.py:TypeTokenMatrix.most_similar"]}
{"id": "C180", "title": "Dependency counts of parts add up", "statement": "The matrix of build_dependency for a corpus is the sum of the matrices of any two parts of its files, of any two parts of the patterns, and of any two parts of the target words; so the counts of a target word do not depend on the other words asked for.", "quantifier": "all corpora, patterns, target words, divisions, numbers of workers and schedules", "why_tests_cant": "the claim relates three runs of a parallel program over arbitrary divisions of its input", "anchors": ["nephosem/models/deprel.py:DepRelHandler.build_dependency", "nephosem/models/deprel.py:DepRelHandler.build_matrix_by_matches", "nephosem/models/deprel.py:DepRelHandler._do_process_job"]}
{"id": "C181", "title": "A line machine of tab-separated columns reads exactly the columns", "statement": "If the line machine is a regular expression of columns separated by tabs \u2014 each column kept in a group, passed over, or a fixed text \u2014 then a corpus line is an item line exactly if it has enough columns and each of them fits (is not empty, or is the fixed text), and the groups are the columns of the line; this is so for every spelling of the tab, and more columns at the end of a line do not disturb.", "quantifier": "all such line machines, all lines and all Unicode tables", "why_tests_cant": "a test can only try some lines and machines; the claim is about what backtracking finds for every line", "anchors": ["nephosem/core/terms.py:CorpusFormatter.match_line", "nephosem/core/terms.py:CorpusFormatter.__init__"]}
{"id": "C182", "title": "The lines of a corpus file are read as they stand", "statement": "A file in the format of the shipped settings is read line by line: every item line of the file gives its item with its own line number, and the frequency of lemma/pos is the number of lines that have it.", "quantifier": "all corpus files", "why_tests_cant": "it is about every text a corpus may contain, including characters and empty columns nobody thought of", "anchors": ["nephosem/core/terms.py:CorpusFormatter.match_line", "nephosem/core/terms.py:CorpusFormatter.get_type", "nephosem/core/terms.py:CorpusFormatter.get_token", "nephosem/models/typetoken.py:ItemFreqHandler.update_one_file"]}
{"id": "C183", "title": "The separator line machine marks exactly the lines with its text", "statement": "With the text of the boundary lines as separator-line-machine, exactly the lines that consist of that text are boundaries.", "quantifier": "all texts without special characters and all lines", "why_tests_cant": "a wrong boundary shows only in lines that resemble the separator", "anchors": ["nephosem/core/terms.py:CorpusFormatter.separator_line_machine", "nephosem/core/terms.py:CorpusFormatter.match_line"]}
{"id": "C184", "title": "A template edge that names a relation matches exactly this relation", "statement": "An edge or node of a template whose attribute is given as a word, (word) or word|word matches exactly the edges or nodes whose attribute is the word, or one of the words.", "quantifier": "all words without special characters, all attributes and sentences", "why_tests_cant": "a test with one relation does not show which other relations of a tag set are matched as well", "anchors": ["nephosem/core/graph.py:PatternGraph.match_edge", "nephosem/core/graph.py:PatternGraph.match_node"]}
{"id": "C185", "title": "Attributes appear in full in the strings of targets and features", "statement": "The groups of template attributes such as (\\w+) or (.+) show the whole attribute of the node or edge they match, so that different lemmas have different strings.", "quantifier": "all attribute values", "why_tests_cant": "it is about every value that occurs in corpora: hyphens, apostrophes, punctuation", "anchors": ["nephosem/core/graph.py:MacroGraph.target", "nephosem/core/graph.py:MacroGraph.feature"]}
{"id": "C186", "title": "Vocab.match selects what its pattern says", "statement": "The text of an item as pattern selects that item and no other; the pattern ^..+/N.* of the documentation selects the items with the part of speech N after two or more characters.", "quantifier": "all vocabularies and items", "why_tests_cant": "whether a pattern selects something else depends on all items of the vocabulary", "anchors": ["nephosem/core/vocab.py:Vocab.match"]}
{"id": "C187", "title": "Every word line of a dependency corpus becomes a node of its sentence", "statement": "With the documented line machine (one kept column for every column the settings name) and the closing line of sentences as separator, the text of a dependency corpus is read as its sentences: every word with its line number, in the sentence it stands in, with its columns as attributes and an edge from its head.", "quantifier": "all corpus texts, columns and Unicode tables", "why_tests_cant": "it is about every text; tests use one small corpus without empty columns", "anchors": ["nephosem/models/deprel.py:read_sentence", "nephosem/core/graph.py:SentenceGraph", "nephosem/core/terms.py:CorpusFormatter.match_line", "nephosem/core/terms.py:CorpusFormatter.get"]}
{"id": "C188", "title": "Co-occurrence counts can be read off the text of the corpus", "statement": "With the shipped settings, counting a corpus file given as text adds to the cell of a target and a collocate how often the collocate stands at most the left span before or the right span after the target, both read as lemma/pos and without a boundary line between them, provided both vocabularies let the items pass; otherwise it adds nothing.", "quantifier": "all corpus texts in the shipped format, spans, vocabularies and matrices so far", "why_tests_cant": "it is about every text together with all spans; tests compare one small corpus", "anchors": ["nephosem/models/typetoken.py:ColFreqHandler.update_one_match", "nephosem/core/handler.py:BaseHandler.update_one_file", "nephosem/core/terms.py:CorpusFormatter.match_line", "nephosem/core/terms.py:CorpusFormatter.get_type"]}
{"id": "C189", "title": "Tokens and their contexts can be read off the text of the corpus", "statement": "With the shipped settings, retrieving tokens from a corpus file given as text yields for each query one token per line of that type, in file order, named word/pos/file/line number, and its contexts are the items lemma/pos within the left and right spans on lines not separated from it by a boundary line, restricted to the column vocabulary.", "quantifier": "all corpus texts in the shipped format, file names, spans, queries and column vocabularies", "why_tests_cant": "it is about every text, with line numbers and contexts, and all spans; tests look at a few tokens of one corpus", "anchors": ["nephosem/models/typetoken.py:TokenHandler.update_one_match", "nephosem/models/typetoken.py:TokenHandler.process_right_window", "nephosem/core/handler.py:BaseHandler.update_one_file", "nephosem/core/terms.py:CorpusFormatter.match_line", "nephosem/core/terms.py:CorpusFormatter.get_token"]}
{"id": "C190", "title": "Row sums of a co-occurrence matrix count neighbours", "statement": "If no column vocabulary is given, the sum of the row of a type in a co-occurrence matrix is the number of neighbours of all its occurrences: for each occurrence at most the left span lines before it and at most the right span lines after it in its segment.", "quantifier": "all corpora, spans, row vocabularies, types and worker schedules", "why_tests_cant": "association measures take these sums as marginal frequencies; tests compare sums only with the matrix itself, not with the corpus", "anchors": ["nephosem/models/typetoken.py:ColFreqHandler.build_col_freq", "nephosem/models/typetoken.py:ColFreqHandler.update_one_match", "nephosem/core/matrix.py:TypeTokenMatrix.sum"]}
{"id": "C191", "title": "The tutorial's weighting of a corpus is positive pointwise mutual information", "statement": "Building a co-occurrence matrix from a corpus and weighting it with compute_association(meas='ppmi'), with the row sums and column sums of the matrix as frequencies, gives for every type and collocate that occur together max(0, log(O N / (R C))), where O is how often the collocate stands within the spans of the type in the corpus, R and C are the sums of these counts over all collocates and over all types, and N is their total; pairs that do not occur together get 0.", "quantifier": "all corpora, spans, vocabularies and worker schedules", "why_tests_cant": "it connects the corpus with the logarithm through five functions; tests check a few numbers of the last one", "anchors": ["nephosem/specutils/mxcalc.py:compute_association", "nephosem/specutils/mxcalc.py:calc_association", "nephosem/specutils/mxcalc.py:calc_ppmi", "nephosem/core/matrix.py:TypeTokenMatrix.sum", "nephosem/models/typetoken.py:ColFreqHandler.build_col_freq"]}
{"id": "C192", "title": "The vector of a token is the combination of its contexts' vectors", "statement": "After retrieve_tokens, compute_token_weights with a weight matrix over the same contexts and compute_token_vectors with a second-order matrix of these contexts, the row of every occurrence of a query in the corpus is the sum over the different context items within its spans (that are in the column vocabulary, if there is one) of the weight of the type and the context times the vector of the context; with operation='weightedmean' this sum is divided by the sum of the weights.", "quantifier": "all corpora, spans, queries, vocabularies, weight and second-order matrices and worker schedules", "why_tests_cant": "it connects the words around an occurrence with its vector through the whole pipeline; tests only check shapes or single products", "anchors": ["nephosem/models/typetoken.py:TokenHandler.retrieve_tokens", "nephosem/specutils/mxcalc.py:compute_token_weights", "nephosem/specutils/mxcalc.py:compute_token_vectors", "nephosem/specutils/mxutils.py:transform_nodes_to_matrix"]}
{"id": "C193", "title": "Every format of columns is counted as its text says", "statement": "For every line machine made of tab-separated columns (kept, passed over, reduced to the first character, or fixed text), every naming of the kept columns, every type and collocate format over these names and every separator text (alone or between ^ and $), a corpus file given as text is counted as follows: the frequency of a type is the number of lines whose columns fit and give that type, and the co-occurrence matrix counts how often the collocate stands within the spans of the type between two separator lines.", "quantifier": "all such settings, all corpus texts, spans and vocabularies", "why_tests_cant": "there are infinitely many formats, and a corpus text can have any lines; tests use two formats on one corpus", "anchors": ["nephosem/core/terms.py:CorpusFormatter.__init__", "nephosem/core/terms.py:CorpusFormatter.match_line", "nephosem/core/terms.py:CorpusFormatter.get_type", "nephosem/core/handler.py:BaseHandler.update_one_file", "nephosem/models/typetoken.py:ColFreqHandler.update_one_match"]}
{"id": "C194", "title": "Templates with one relation count heads and dependents", "statement": "For templates that ask for a head word, a dependent word and a relation between them, build_dependency gives, for every number of workers, the matrix whose entry for a target and a feature is the number of pairs of a word and its head in the corpus that meet the conditions of one of the templates and have that target and feature strings; its rows and columns are the targets and features that occur, sorted; without any such pair it raises ValueError.", "quantifier": "all corpora, templates with one relation, regular expressions, target lists and worker schedules", "why_tests_cant": "it is a statement about all corpora and templates; tests count the pairs of one corpus with shipped templates", "anchors": ["nephosem/models/deprel.py:DepRelHandler.build_dependency", "nephosem/models/deprel.py:DepRelHandler.update_dep_rel_type", "nephosem/models/deprel.py:DepRelHandler.build_matrix_by_matches", "nephosem/specutils/deputils.py:tree_match"]}
{"id": "C195", "title": "The dependency matrix of one relation, from the text of the corpus", "statement": "For a template that asks for any head and any dependent (the target) with relation r, build_dependency on corpus files given as text gives the matrix whose entry for a target t and the column h->r:#T# is the number of lines of the text that have t in the word column and r in the relation column and whose head line has h in the word column.", "quantifier": "all texts of sentences of tab-separated columns, all relations r, words and worker schedules", "why_tests_cant": "it connects the characters of the files with the matrix through reading, graph building, matching and printing of features; tests check single steps on one corpus", "anchors": ["nephosem/models/deprel.py:DepRelHandler.build_dependency", "nephosem/models/deprel.py:read_sentence", "nephosem/core/graph.py:SentenceGraph.build_graph", "nephosem/specutils/deputils.py:tree_match", "nephosem/core/graph.py:MacroGraph.target"]}
{"id": "C196", "title": "Clustering by committee accepts the arguments it documents", "statement": "CBC(...) accepts NumPy or SciPy arrays for its three matrices, computes the association measures and the distances when they are left out, and with every prune method and the default threshold cluster() goes through its rounds with the given elements.", "quantifier": "all elements, matrices, options and numbers of elements", "why_tests_cant": "it is about all combinations of argument types and options; the package has no test of CBC", "anchors": ["nephosem/models/cbc.py:CBC.__init__", "nephosem/models/cbc.py:CBC.cluster", "nephosem/models/cbc.py:cbc_step1_single", "nephosem/models/cbc.py:flat_cluster"]}
{"id": "C197", "title": "Tokens of every column format can be read off the text", "statement": "For every line machine made of tab-separated columns, every naming of the kept columns, every type, collocate and token format over these names and every separator text, retrieving tokens from a corpus file given as text yields for each query one token per line of that type, in file order, named by its columns, the file and the line number, with the collocates within the spans on lines not separated from it, restricted to the column vocabulary.", "quantifier": "all such settings, corpus texts, file names, spans, queries and column vocabularies", "why_tests_cant": "there are infinitely many formats and texts; tests look at a few tokens in one format", "anchors": ["nephosem/models/typetoken.py:TokenHandler.update_one_match", "nephosem/models/typetoken.py:TokenHandler.process_right_window", "nephosem/core/handler.py:BaseHandler.update_one_file", "nephosem/core/terms.py:CorpusFormatter.get_token"]}
{"id": "C198", "title": "From the settings and the texts of a corpus to frequencies, counts and weights", "statement": "For every column format and every corpus given as text, whatever the worker processes do: build_item_freq returns the types of the texts with the number of lines of each; build_col_freq returns None if no asked pair is within the spans anywhere, and otherwise a matrix whose entries are how often the texts have the collocate within the spans of the type; and weighting that matrix by ppmi with its own sums gives the positive pointwise mutual information of these numbers.", "quantifier": "all such settings, corpora, spans, vocabularies, numbers of workers and schedules", "why_tests_cant": "it connects the characters of the files with the weights through all steps and all interleavings of processes; tests check single steps on one corpus", "anchors": ["nephosem/models/typetoken.py:ItemFreqHandler.build_item_freq", "nephosem/models/typetoken.py:ColFreqHandler.build_col_freq", "nephosem/specutils/mxcalc.py:compute_association", "nephosem/core/handler.py:Paralleler.process", "nephosem/core/terms.py:CorpusFormatter.match_line"]}
{"id": "C199", "title": "From the settings and the texts of a corpus to token matrices and token vectors", "statement": "For every column format and every corpus given as text, whatever the worker processes do: retrieve_tokens returns a matrix with one row per line of the queries, named by its columns, its file and its line number, all names distinct; the entry of a line and a collocate is the signed distance at which the collocate stands within the spans on lines not separated from it, and absent if it does not; and token weights and vectors computed from it are the weighted sums or means of the vectors of what stands there.", "quantifier": "all such settings, corpora, spans, queries, vocabularies, numbers of workers and schedules", "why_tests_cant": "it connects the characters of the files with the vectors of tokens through all steps and interleavings; tests look at single steps on one corpus", "anchors": ["nephosem/models/typetoken.py:TokenHandler.retrieve_tokens", "nephosem/models/typetoken.py:TokenHandler.update_one_match", "nephosem/specutils/mxutils.py:transform_nodes_to_matrix", "nephosem/specutils/mxcalc.py:compute_token_weights", "nephosem/specutils/mxcalc.py:compute_token_vectors", "nephosem/core/terms.py:CorpusFormatter.get_token"]}
{"id": "C200", "title": "The collocates of a type are the collocates of its tokens", "statement": "collocs of a type node is the set of the collocates of all its tokens: it has exactly the collocates that stand near some token, each once, and none for tokens without collocates.", "quantifier": "all type nodes and tokens", "why_tests_cant": "whether equal collocates are merged depends on object identity across all tokens; the package's test of it is empty", "anchors": ["nephosem/core/terms.py:TypeNode.get_collocs", "nephosem/core/terms.py:TypeNode.collocs", "nephosem/models/typetoken.py:TokenHandler.update_one_match"]}
{"id": "C201", "title": "The older reader of corpus lines gives the same types as the formatter", "statement": "Getter reads types, tokens and items from corpus lines as CorpusFormatter does for the same settings: type and item strings agree, tokens end in the file name and line number, and a line that does not match is refused with the same outcome.", "quantifier": "all settings, lines and file names", "why_tests_cant": "the two readers interpret the settings independently; tests cover only the newer one", "anchors": ["nephosem/core/terms.py:Getter.get_func", "nephosem/core/terms.py:Getter.get_type", "nephosem/core/terms.py:Getter.get_token", "nephosem/core/terms.py:Getter.get_item", "nephosem/core/terms.py:Getter.token_line_machine", "nephosem/core/terms.py:CorpusFormatter.get_type"]}
{"id": "C202", "title": "A sentence holds the lines of its text that are no tags", "statement": "The content of a sentence object is the sequence of the lines of its text which do not begin with a tag, in order, each once, whatever text is given and however often it is parsed.", "quantifier": "all texts", "why_tests_cant": "it is about all texts, including empty lines and trailing line ends, and about repeated calls", "anchors": ["nephosem/core/terms.py:Sentence.parse", "nephosem/core/terms.py:Sentence.__init__"]}
{"id": "C203", "title": "Meta data of matrices is kept", "statement": "Meta data given to a matrix as keyword arguments or set as attributes is in its meta_data, goes over to copies and to the matrices derived from it by arithmetic, transposition, conversion and selection, is written by save, and is there again after load.", "quantifier": "all matrices that programs make from one another, all attribute names and values", "why_tests_cant": "it is a statement about every chain of operations; tests compare entries and items only", "anchors": ["nephosem/core/matrix.py:TypeTokenMatrix.__init__", "nephosem/core/matrix.py:TypeTokenMatrix.meta_data", "nephosem/core/matrix.py:TypeTokenMatrix.save", "nephosem/core/matrix.py:TypeTokenMatrix.load", "nephosem/core/matrix.py:TypeTokenMatrix.transpose", "nephosem/core/matrix.py:TypeTokenMatrix.submatrix"]}
{"id": "C204", "title": "The dependency matrix counts the placements of its templates", "statement": "For templates of any size, the entry of the matrix of build_dependency at a row and column is the number of ways to place the nodes of a template on words of a sentence such that the words meet the conditions of the nodes, heads and relations those of the edges, the target is among the targets of the handler and what is shown of target and feature is that row and column; rows and columns are those that occur, sorted. Different nodes are on different words.", "quantifier": "all corpora with the given columns, tree templates with conditions everywhere, targets, numbers of workers and schedules", "why_tests_cant": "it counts over all placements in all sentences and sums over all schedules of all workers", "anchors": ["nephosem/models/deprel.py:DepRelHandler.build_dependency", "nephosem/models/deprel.py:DepRelHandler.build_matrix_by_matches", "nephosem/core/graph.py:SentenceGraph.match_pattern", "nephosem/core/graph.py:MacroGraph.target", "nephosem/core/graph.py:MacroGraph.feature", "nephosem/specutils/deputils.py:tree_match"]}
{"id": "C205", "title": "From macro files and texts to the dependency matrix", "statement": "The matrix of build_dependency for the macros of a file, the patterns they refer to and the texts of a corpus counts the placements of exactly the templates which the file describes on the words of the texts.", "quantifier": "all macro files with usable macros in any number, all patterns with distinct numbers, all texts of good sentences, numbers of workers and schedules", "why_tests_cant": "it composes the readers of macros and of corpus lines, the matcher and the workers; no finite set of files settles it", "anchors": ["nephosem/core/graph.py:MacroGraph.read_xml", "nephosem/models/deprel.py:DepRelHandler.build_dependency", "nephosem/models/deprel.py:DepRelHandler.update_dep_rel_type", "nephosem/models/deprel.py:read_sentence"]}
{"id": "C206", "title": "Warnings stay in the log file", "statement": "After the package is imported, every message of level WARNING or above of any of its loggers is appended, in order, to the log file ~/tmp/nephosem.log, which keeps its earlier lines; this holds through whatever is done with the package afterwards, and other files are not touched.", "quantifier": "all histories of messages, levels not above WARNING and constructions of handlers; all homes and all states of the disk", "why_tests_cant": "it ranges over histories of any length and over all contents of the disk", "anchors": ["nephosem/logging.py:init_logging", "nephosem/core/handler.py:BaseHandler.__init__", "nephosem/utils.py:clean_dir"]}
{"id": "C207", "title": "Log messages are shown with their arguments", "statement": "A message logged with arguments, like logger.info('loaded %s', fname), is shown on the console and written to the log file with the arguments in place of the %s.", "quantifier": "all messages, levels and arguments", "why_tests_cant": "it is a statement about every format string and every tuple of arguments", "anchors": ["nephosem/logging.py:DefaultFormatter.format", "nephosem/logging.py:DefaultFormatter.__init__", "nephosem/utils.py:SaveLoad.load"]}
{"id": "C208", "title": "change_log_file moves the log and changes nothing else", "statement": "After change_log_file(logger, fname) warnings go to fname, appended to what it has, the former log file stays as it was, and the console and the handlers of the user still get every message; it can be repeated. If fname cannot be opened, an exception is raised and messages go on to where they went.", "quantifier": "all histories of messages, changes, constructions of handlers and user handlers; all paths and states of the disk", "why_tests_cant": "it ranges over histories of any length", "anchors": ["nephosem/logging.py:change_log_file", "nephosem/logging.py:create_file_handler"]}
{"id": "C209", "title": "Retrieving again gives the tokens of the files given", "statement": "A second call of retrieve_tokens on a TokenHandler, with other files, returns the rows of the occurrences in these files, like a new handler; type nodes hold every token once however often it is called.", "quantifier": "all sequences of calls with any files, numbers of workers and schedules without worker deaths", "why_tests_cant": "it ranges over all sequences of calls and all schedules of each", "anchors": ["nephosem/models/typetoken.py:TokenHandler.retrieve_tokens", "nephosem/models/typetoken.py:TokenHandler._worker_loop", "nephosem/models/typetoken.py:TokenHandler._process_results", "nephosem/specutils/mxutils.py:transform_nodes_to_matrix"]}
{"id": "C210", "title": "The vocabularies of a call hold for that call", "statement": "build_col_freq(fnames, row_vocab, col_vocab) counts the given rows and columns, and all columns if no column vocabulary is given, whatever the same ColFreqHandler was called with before.", "quantifier": "all sequences of calls with any vocabularies, files and schedules", "why_tests_cant": "it ranges over all sequences of calls", "anchors": ["nephosem/models/typetoken.py:ColFreqHandler.build_col_freq", "nephosem/models/typetoken.py:ColFreqHandler.__init__"]}
{"id": "C211", "title": "Occurrences in files that differ in their extension have rows of their own", "statement": "retrieve_tokens returns one row per occurrence of the queried types, also where several files of the corpus have the same name but for the extension.", "quantifier": "all corpora, numbers of workers and schedules without worker deaths", "why_tests_cant": "it ranges over all corpora and all schedules of the workers", "anchors": ["nephosem/models/typetoken.py:TokenHandler.retrieve_tokens", "nephosem/specutils/mxutils.py:transform_nodes_to_matrix", "nephosem/core/handler.py:BaseHandler.update_one_file"]}
{"id": "C212", "title": "Dependency matrices of tokens divide those of types", "statement": "With mode='token' each row of the matrix of build_dependency counts the matches of one word of the corpus, and the rows of the words of a type add up to the row of the type with mode='type'.", "quantifier": "all corpora, templates with the columns of the file and the line in their targets, numbers of workers and schedules", "why_tests_cant": "it ranges over all corpora and templates, and over the schedules of two calls", "anchors": ["nephosem/models/deprel.py:DepRelHandler.build_dependency", "nephosem/models/deprel.py:DepRelHandler.update_dep_rel_token", "nephosem/models/deprel.py:DepRelHandler.update_dep_rel_type", "nephosem/models/deprel.py:DepRelHandler.build_matrix_by_matches", "nephosem/specutils/deputils.py:add_match"]}
{"id": "C213", "title": "The dependency matrix does not depend on order or numbering", "statement": "build_dependency with mode='type' returns the same rows, columns and counts whatever the order of the files, of the sentences in them, of the lines of a sentence and of the templates, however the words of a sentence are numbered, and whatever the number of workers.", "quantifier": "all corpora and re-arrangements of them, all lists of templates, all numbers of workers and schedules", "why_tests_cant": "it relates two calls for all corpora and schedules", "anchors": ["nephosem/models/deprel.py:DepRelHandler.build_dependency", "nephosem/models/deprel.py:DepRelHandler.build_matrix_by_matches", "nephosem/models/deprel.py:DepRelHandler.update_dep_rel_type", "nephosem/specutils/deputils.py:tree_match", "nephosem/specutils/deputils.py:add_match"]}
{"id": "C214", "title": "Further conditions of a template never raise a count", "statement": "If conditions on attributes of nodes or relations are added to templates, every entry of the matrix of build_dependency stays or becomes smaller, and no row or column is new.", "quantifier": "all corpora, lists of templates and further conditions, both modes, all numbers of workers and schedules", "why_tests_cant": "it relates two calls for all corpora, templates and schedules", "anchors": ["nephosem/models/deprel.py:DepRelHandler.build_dependency", "nephosem/models/deprel.py:DepRelHandler.build_matrix_by_matches", "nephosem/specutils/deputils.py:tree_match", "nephosem/specutils/deputils.py:add_match"]}
{"id": "C215", "title": "Distances between tokens follow from the words around them", "statement": "Occurrences of a type with the same words within their spans, in whatever order and however often each, get the same token vector with any norm, so that compute_distance gives 0 for them with every metric. In general the cosine distance of two tokens is one minus the cosine of the sums of the weighted second-order vectors of their contexts, whatever the norm.", "quantifier": "all corpora, spans, weights, second-order matrices, norms and pairs of occurrences", "why_tests_cant": "it relates four calls for all corpora and pairs of occurrences", "anchors": ["nephosem/models/typetoken.py:TokenHandler.retrieve_tokens", "nephosem/specutils/mxcalc.py:compute_token_weights", "nephosem/specutils/mxcalc.py:compute_token_vectors", "nephosem/specutils/mxcalc.py:compute_distance"]}
{"id": "C216", "title": "Only the sentences of a corpus matter", "statement": "Two corpora whose sentences (the words of non-empty segments, as types and collocates) are the same up to their order give the same frequencies with build_item_freq and the same rows, columns and counts with build_col_freq, however the sentences are divided into files, however many empty segments there are, whatever lines match no word, and whatever format (line machine, separator, templates for types and collocates) each of them is written in.", "quantifier": "all pairs of corpora and formats, spans, vocabularies, numbers of workers and schedules", "why_tests_cant": "it relates two calls for all corpora, formats and schedules", "anchors": ["nephosem/models/typetoken.py:ItemFreqHandler.build_item_freq", "nephosem/models/typetoken.py:ColFreqHandler.build_col_freq", "nephosem/models/typetoken.py:ColFreqHandler.update_one_match", "nephosem/core/handler.py:BaseHandler.process"]}
{"id": "C217", "title": "A corpus repeated k times", "statement": "If one corpus has every sentence of another k times, in whatever order, files and format, build_item_freq gives k times the frequencies and build_col_freq the same rows and columns with k times the counts. Weighted by compute_association with the sums of its rows and columns, Dice, delta P and log ratio stay the same, chi square and log likelihood are multiplied by k, z-scores by the root of k, and pmi and ppmi stay the same within 3e-10; the weighting fails for both or for none.", "quantifier": "all corpora and formats, all k > 0, spans, vocabularies, measures, numbers of workers and schedules", "why_tests_cant": "it relates four calls for all corpora, repetitions and schedules", "anchors": ["nephosem/models/typetoken.py:ItemFreqHandler.build_item_freq", "nephosem/models/typetoken.py:ColFreqHandler.build_col_freq", "nephosem/core/matrix.py:TypeTokenMatrix.sum", "nephosem/specutils/mxcalc.py:compute_association"]}
{"id": "C218", "title": "Words are only compared with each other", "statement": "If types and collocates of a corpus and of the vocabularies are renamed so that different words keep different names, the frequencies, counts and scores (compute_association with the sums of the matrix) of renamed words are those of the words; rows and columns are the renamed ones, in the same order if the new names sort like the old ones.", "quantifier": "all corpora and formats, injective renamings of types and of collocates, spans, vocabularies, measures, numbers of workers and schedules", "why_tests_cant": "it relates two chains of calls for all corpora and renamings", "anchors": ["nephosem/models/typetoken.py:ItemFreqHandler.build_item_freq", "nephosem/models/typetoken.py:ColFreqHandler.build_col_freq", "nephosem/models/typetoken.py:ColFreqHandler.update_one_match", "nephosem/specutils/mxcalc.py:compute_association"]}
{"id": "C219", "title": "Scale of vectors", "statement": "compute_cosine and compute_distance with cosine give two items the same value if the row of each is multiplied by a positive number, also if the two numbers differ. Euclidean and Manhattan distances of two rows multiplied by one number are multiplied by its absolute value. So a corpus in which every sentence is repeated k times yields the same cosine similarities and distances of counts, and k times the other distances.", "quantifier": "all matrices, items, positive factors, metrics; all corpora, formats, spans, vocabularies and k > 0", "why_tests_cant": "it relates two calls for all matrices and factors", "anchors": ["nephosem/specutils/mxcalc.py:compute_cosine", "nephosem/specutils/mxcalc.py:compute_distance", "nephosem/models/typetoken.py:ColFreqHandler.build_col_freq"]}
{"id": "C220", "title": "Counts to the left and to the right add up", "statement": "For the same files and vocabularies, each entry of the matrix of build_col_freq with spans L and R is the sum of the entries with spans L and 0 and with spans 0 and R.", "quantifier": "all corpora and formats, spans, vocabularies, numbers of workers and schedules", "why_tests_cant": "it relates three calls for all corpora and schedules", "anchors": ["nephosem/models/typetoken.py:ColFreqHandler.build_col_freq", "nephosem/models/typetoken.py:ColFreqHandler.update_one_match", "nephosem/core/handler.py:BaseHandler.update_one_file"]}
{"id": "C221", "title": "The row of a token is decided by the words within its spans", "statement": "In the matrices of any two calls of retrieve_tokens with the same spans and column vocabulary, two tokens with the same words in the same order within their spans have the same entries, whatever else stands in their files, whichever other files and types are asked for, and whatever the workers do.", "quantifier": "all files, queries, formats, spans with R > 0, column vocabularies, numbers of workers, schedules and deaths of workers", "why_tests_cant": "it relates two calls for all corpora and schedules", "anchors": ["nephosem/models/typetoken.py:TokenHandler.retrieve_tokens", "nephosem/models/typetoken.py:TokenHandler.update_one_match"]}
{"id": "C222", "title": "Matrices can be divided and put together again", "statement": "If the row names of a sparse matrix are divided in two lists, the submatrices of the two lists, concatenated, hold the rows of the first and then of the second list, the columns of the matrix and its entries; the same holds for columns. Selecting rows and columns from two merged matrices gives the names and entries of the merged selections.", "quantifier": "all sparse (csr or csc) matrices, divisions into two non-empty lists, and requests that find something in both matrices and something other than 0 in the first", "why_tests_cant": "it relates chains of calls for all matrices and divisions", "anchors": ["nephosem/core/matrix.py:TypeTokenMatrix.submatrix", "nephosem/core/matrix.py:TypeTokenMatrix.concatenate", "nephosem/core/matrix.py:TypeTokenMatrix.merge"]}
{"id": "C223", "title": "The sum of all counts is decided by the lengths of the sentences", "statement": "If every type of the corpus is in the row vocabulary and no column vocabulary is given, the sum of the co-occurrence matrix is the number of pairs of lines of one segment within the spans: n - k for each segment of n lines and each distance k within a span. It does not depend on the words.", "quantifier": "all settings, corpora, spans and row vocabularies that have all types", "why_tests_cant": "it sums over all corpora of all lengths", "anchors": ["nephosem/models/typetoken.py:ColFreqHandler.build_col_freq", "nephosem/models/typetoken.py:ColFreqHandler.process_right_window", "nephosem/core/matrix.py:TypeTokenMatrix.sum"]}
{"id": "C224", "title": "Column sums of a co-occurrence matrix count the lines that see a collocate", "statement": "If every type of the corpus is in the row vocabulary, sum(axis=0) gives for each collocate the number of lines that have one of its occurrences within their spans: those at most R lines before it and those at most L lines after it.", "quantifier": "all settings, corpora, spans, column vocabularies, and row vocabularies that have all types", "why_tests_cant": "it is a count over all corpora", "anchors": ["nephosem/models/typetoken.py:ColFreqHandler.build_col_freq", "nephosem/models/typetoken.py:ColFreqHandler.process_right_window", "nephosem/core/matrix.py:TypeTokenMatrix.sum"]}
{"id": "C225", "title": "The association measures agree on which pairs attract each other", "statement": "compute_association with pmi, ppmi, zscore, deltap, deltapColl or logratio gives a pair a positive value exactly if it is more frequent than expected from its margins; so all these measures give the same pairs positive values.", "quantifier": "all matrices, frequencies and totals with non-negative contingency tables", "why_tests_cant": "it compares six formulas on all tables of real numbers", "anchors": ["nephosem/specutils/mxcalc.py:compute_association", "nephosem/specutils/mxcalc.py:calc_pmi", "nephosem/specutils/mxcalc.py:calc_zscore", "nephosem/specutils/mxcalc.py:calc_deltap", "nephosem/specutils/mxcalc.py:calc_deltap_coll", "nephosem/specutils/mxcalc.py:calc_log_ratio"]}
{"id": "C226", "title": "How the association measures are related", "statement": "Chi-square is the total frequency times both Delta P. The square of the z-score is at most chi-square, and both are 0 together. Dice of a pair that occurs is positive and at most 1, and it is 1 exactly if target and collocate occur with each other only.", "quantifier": "all contingency tables of non-negative numbers with positive margins", "why_tests_cant": "it relates formulas on all tables of real numbers", "anchors": ["nephosem/specutils/mxcalc.py:calc_chisq", "nephosem/specutils/mxcalc.py:calc_zscore", "nephosem/specutils/mxcalc.py:calc_deltap", "nephosem/specutils/mxcalc.py:calc_deltap_coll", "nephosem/specutils/mxcalc.py:calc_dice"]}
{"id": "C227", "title": "What similarities of 0 and 1 mean", "statement": "compute_cosine gives two rows without negative values a similarity between 0 and 1 (so compute_distance a cosine distance between 0 and 1), and 0 exactly if no column has a value in both rows. For rows of any sign the similarity is 1 (distance 0) exactly if one row is a positive multiple of the other.", "quantifier": "all matrices and all pairs of different rows that are not 0 throughout", "why_tests_cant": "equality in the Cauchy-Schwarz inequality is a statement on all vectors of all lengths", "anchors": ["nephosem/specutils/mxcalc.py:compute_cosine", "nephosem/specutils/mxcalc.py:compute_distance"]}
{"id": "C228", "title": "Euclidean and cosine distance order vectors of length 1 alike", "statement": "For rows of length 1 the square of compute_distance(metric='euclidean') is twice the cosine distance; so both metrics order the neighbours of a row alike. This holds in particular for all token vectors from compute_token_vectors(normalization='l2') that are not 0 throughout.", "quantifier": "all matrices with rows of length 1; all token-by-context and second-order matrices", "why_tests_cant": "it relates two metrics on all vectors of real numbers", "anchors": ["nephosem/specutils/mxcalc.py:compute_distance", "nephosem/specutils/mxcalc.py:compute_token_vectors"]}
{"id": "C229", "title": "Empty rows and columns can be dropped in any order", "statement": "drop_empty(axis=0) followed by drop_empty(axis=1) gives the same matrix as the other order: exactly the rows and columns with a value, in their order and with their values, and nothing empty is left. Dropping empty columns changes no row sum, not the total, no cosine similarity and no distance.", "quantifier": "all matrices in compressed sparse format with at least one value", "why_tests_cant": "it compares two sequences of operations on all matrices", "anchors": ["nephosem/core/matrix.py:TypeTokenMatrix.drop_empty", "nephosem/core/matrix.py:TypeTokenMatrix.drop_empty_rows", "nephosem/specutils/mxcalc.py:compute_cosine"]}
{"id": "C230", "title": "After dropping rows and columns with few values, all have enough", "statement": "After drop(axis=0, n_nonzero=n) and drop(axis=1, n_nonzero=n) every remaining row and every remaining column has more than n values, whatever the order; dropping in steps of growing n is dropping with the last n.", "quantifier": "all matrices in compressed sparse format and all n", "why_tests_cant": "it is a statement on sequences of operations on all matrices", "anchors": ["nephosem/core/matrix.py:TypeTokenMatrix.drop"]}
{"id": "C231", "title": "Words with the same distribution have the same vector", "statement": "If one word occurs k times as often as another, and k times as often with every collocate, compute_association gives both the same pmi and the same ppmi with every collocate; so compute_cosine gives them similarity 1.", "quantifier": "all count matrices, frequencies, totals and factors k > 0", "why_tests_cant": "it compares two rows for all counts and frequencies", "anchors": ["nephosem/specutils/mxcalc.py:compute_association", "nephosem/specutils/mxcalc.py:calc_pmi", "nephosem/specutils/mxcalc.py:calc_ppmi", "nephosem/specutils/mxcalc.py:compute_cosine"]}
{"id": "C232", "title": "Words are similar if they share collocates", "statement": "The ppmi vectors of two words have a cosine similarity above 0 exactly if there is a collocate that occurs with both more often than expected. With any measure, words that share no collocate have similarity 0.", "quantifier": "all count matrices, frequencies and totals, all pairs of different words", "why_tests_cant": "it is a statement on all counts and frequencies", "anchors": ["nephosem/specutils/mxcalc.py:compute_association", "nephosem/specutils/mxcalc.py:calc_ppmi", "nephosem/specutils/mxcalc.py:compute_cosine"]}
{"id": "C233", "title": "How distances depend on the columns", "statement": "If two matrices with the same rows and different columns are concatenated (axis=1), Manhattan distances and squared Euclidean distances of two rows add up, and the cosine similarity of rows that have length 1 in both is the mean of the two similarities. Selecting columns never raises a Manhattan or Euclidean distance.", "quantifier": "all sparse matrices with the same rows and different columns; all selections of columns", "why_tests_cant": "it relates distances in several matrices for all real values", "anchors": ["nephosem/core/matrix.py:TypeTokenMatrix.concatenate", "nephosem/core/matrix.py:TypeTokenMatrix.submatrix", "nephosem/specutils/mxcalc.py:compute_distance", "nephosem/specutils/mxcalc.py:compute_cosine"]}
{"id": "C234", "title": "A corpus file that cannot be read is reported", "statement": "If a file of the list cannot be opened, decoded or parsed, or the mode of a DepRelHandler is unknown, build_item_freq, build_col_freq, retrieve_tokens and build_dependency raise an exception; they do not return results in which other files are missing.", "quantifier": "all lists of files, all sets of files that raise, all numbers of workers, all interleavings", "why_tests_cant": "which files die with which worker depends on the schedule", "anchors": ["nephosem/models/typetoken.py:ItemFreqHandler._worker_loop", "nephosem/models/typetoken.py:ColFreqHandler._process_results", "nephosem/models/typetoken.py:TokenHandler._worker_loop", "nephosem/models/deprel.py:DepRelHandler._worker_loop", "nephosem/core/handler.py:Paralleler.process"]}
{"id": "C235", "title": "Templates can be read from a file or given as macros", "statement": "DepRelHandler.read_templates takes templates from a file or macros that were used before: earlier matches of the macros and of the handler do not count in the next build_dependency. Without either it raises ValueError. A list of targets means its different elements; anything but a list or a Vocab is refused.", "quantifier": "all lists of macros with all earlier matches, all tables, all corpora and schedules", "why_tests_cant": "all earlier uses of macros and handlers", "anchors": ["nephosem/models/deprel.py:DepRelHandler.read_templates", "nephosem/models/deprel.py:DepRelHandler.__init__", "nephosem/models/deprel.py:DepRelHandler.build_dependency"]}
{"id": "C236", "title": "Partial counts are passed on in temporary files and cleaned up", "statement": "build_col_freq passes the counts of its workers on through files in the temporary directory. Whatever lies in the file system before, however the corpus is shared out among the workers and in whatever order they finish, the result has the counts of the whole corpus; afterwards the temporary files are gone and no other file has changed. Other programs of the same user do not disturb this.", "quantifier": "all file systems, corpora, vocabularies, window sizes, divisions of the files among workers, process ids and orders of results", "why_tests_cant": "file systems and divisions of work are unbounded; a second program has to act at the right moment", "anchors": ["nephosem/models/typetoken.py:ColFreqHandler._process_results", "nephosem/models/typetoken.py:ColFreqHandler._worker_loop", "nephosem/core/handler.py:Paralleler.__init__", "nephosem/core/handler.py:Paralleler.subtmpdir"]}
{"id": "C237", "title": "Spans as long as the sentences count whole sentences", "statement": "If both spans reach from every word of a sentence to every other word of it, the count of a type and a collocate is, summed over the sentences, how often the one occurs in the sentence times how often the other does, without a word and itself; and the contexts of every token that retrieve_tokens finds are all other words of its sentence that the vocabulary keeps.", "quantifier": "all corpora, formats, vocabularies, spans that reach over all sentences, numbers of workers and schedules", "why_tests_cant": "corpora and sentences of all lengths", "anchors": ["nephosem/models/typetoken.py:ColFreqHandler.build_col_freq", "nephosem/models/typetoken.py:TokenHandler.retrieve_tokens", "nephosem/core/handler.py:BaseHandler.update_one_file"]}
{"id": "C238", "title": "Changing one matrix never changes another", "statement": "A matrix is independent of the array it was made from, of the matrices it was computed from and of the matrices computed from it: changes in place of its array or of its lists of items are seen in no other matrix and in no array of the program, and no change elsewhere is seen in it, unless the constructor is told not to copy.", "quantifier": "all programs that construct, select, reorder, transpose, drop, merge, concatenate, multiply, copy and read out matrices, with all changes in place in between", "why_tests_cant": "all sequences of operations with all changes in between", "anchors": ["nephosem/core/matrix.py:TypeTokenMatrix.__init__", "nephosem/core/matrix.py:TypeTokenMatrix.submatrix", "nephosem/core/matrix.py:TypeTokenMatrix.drop_empty_rows", "nephosem/core/matrix.py:TypeTokenMatrix.get_matrix", "nephosem/core/matrix.py:TypeTokenMatrix.copy", "nephosem/core/matrix.py:SparseMatrix.submatrix"]}
{"id": "C239", "title": "Changing one vocabulary never changes another", "statement": "A vocabulary is independent of the dictionary it was made from, of the vocabularies it was selected or copied from and of those selected or copied from it: setting, incrementing or reading its items, marking it as a filter or changing the dictionary it was made from or the one read out of it is seen in no other vocabulary and no other dictionary.", "quantifier": "all programs that construct, select, restrict, copy and read out vocabularies, with all changes in between", "why_tests_cant": "all sequences of operations with all changes in between", "anchors": ["nephosem/core/vocab.py:Vocab.__init__", "nephosem/core/vocab.py:Vocab._construct", "nephosem/core/vocab.py:Vocab.__getitem__", "nephosem/core/vocab.py:Vocab.__getattr__", "nephosem/core/vocab.py:Vocab.get_dict", "nephosem/core/vocab.py:Vocab.subvocab", "nephosem/core/vocab.py:Vocab.deepcopy"]}
{"id": "C240", "title": "Correcting one word of a corpus", "statement": "If one word line of a corpus is replaced by another word line, the co-occurrence count of a pair changes exactly by what the two words contribute within the spans around them in their sentence: counts of pairs without the old and the new word stay the same, no count changes by more than twice the two spans, and none in the row of another word by more than the two spans.", "quantifier": "all corpora, formats, spans and vocabularies, all lines and their replacements, and all runs of the workers", "why_tests_cant": "all corpora and all corrections", "anchors": ["nephosem/models/typetoken.py:ColFreqHandler.build_col_freq", "nephosem/core/handler.py:BaseHandler.update_one_file"]}
{"id": "C241", "title": "How large association scores can become", "statement": "No score computed by compute_association exceeds what the frequencies allow: chi-square is at most the total frequency N (and equal to it exactly if two words occur only together or never together, with nothing else left over), the z-score at most the square root of N, log-likelihood at most 2 N ln 2, Dice and Delta P at most 1, and PMI and PPMI at most the logarithm of N over the frequency of the more frequent word, which PMI reaches exactly if the rarer word occurs with the other one only.", "quantifier": "all matrices and frequencies with margins that are possible in a corpus", "why_tests_cant": "all real-valued tables", "anchors": ["nephosem/specutils/mxcalc.py:compute_association", "nephosem/specutils/mxcalc.py:calc_pmi", "nephosem/specutils/mxcalc.py:calc_lik", "nephosem/specutils/mxcalc.py:calc_chisq", "nephosem/specutils/mxcalc.py:calc_zscore", "nephosem/specutils/mxcalc.py:calc_dice"]}
{"id": "C242", "title": "Leaving out one word of a corpus", "statement": "If a word line is left out of a sentence of a corpus, the co-occurrence count of a pair loses exactly what this word contributed and gains exactly the pairs whose words then come into reach, the word after the gap as far from the word before it as the span allows: counts of pairs without this word never go down and go up by at most the two spans, and stay the same if it was the first or the last word of its sentence.", "quantifier": "all corpora, formats, spans and vocabularies, all word lines, and all runs of the workers", "why_tests_cant": "all corpora and all lines that can be left out", "anchors": ["nephosem/models/typetoken.py:ColFreqHandler.build_col_freq", "nephosem/core/handler.py:BaseHandler.update_one_file"]}
{"id": "C243", "title": "Neighbours by similarity and by distance", "statement": "compute_simrank gives an item that no other item equals in nearness the same rank in a row of the cosine similarities as with reverse=True in that row of the cosine distances, and, if all rows have length 1 (such as token vectors with l2 normalisation that are not 0 throughout), also in that of the Euclidean distances.", "quantifier": "all matrices with rows and columns, all items, and all ways of sorting equal values", "why_tests_cant": "all real matrices", "anchors": ["nephosem/specutils/mxcalc.py:compute_simrank", "nephosem/specutils/mxcalc.py:compute_cosine", "nephosem/specutils/mxcalc.py:compute_distance", "nephosem/specutils/mxcalc.py:compute_token_vectors"]}
{"id": "C244", "title": "Joining two sentences of a corpus", "statement": "If the separator line between two sentences is left out, no co-occurrence count goes down, and if both sentences have more words than the right span each count grows exactly by the pairs with one word in either sentence that are within the spans of each other over the border; for shorter sentences what their last words do not count is made up for.", "quantifier": "all corpora, formats, spans and vocabularies, all separator lines, and all runs of the workers", "why_tests_cant": "all corpora and all boundaries", "anchors": ["nephosem/models/typetoken.py:ColFreqHandler.build_col_freq", "nephosem/core/handler.py:BaseHandler.update_one_file"]}
{"id": "C245", "title": "A clustering is kept in the home directory", "statement": "CBC.cluster keeps the committees and the residues of all rounds that it returns as two JSON files in a directory of ~/.cbc named after the time of the run, whatever the words; what becomes of the files has no influence on what it returns, and no other file is changed.", "quantifier": "all clusterings, machines, home directories and times", "why_tests_cant": "all ways a clustering can end and all words", "anchors": ["nephosem/models/cbc.py:CBC.cluster", "nephosem/models/cbc.py:save_committees_json", "nephosem/models/cbc.py:save_residues_json"]}
{"id": "C246", "title": "An object saved to an open file", "statement": "An object saved to a file that is open for writing is stored in that one file with all its attributes, whatever the options, and loading the file gives the object back as it was; no other file is written and the object is not changed.", "quantifier": "all objects, options and disks", "why_tests_cant": "all objects, earlier saves and files already there", "anchors": ["nephosem/utils.py:SaveLoad.save", "nephosem/utils.py:SaveLoad.load", "nephosem/utils.py:SaveLoad._load_specials"]}
{"id": "C247", "title": "Clusterings do not disturb each other", "statement": "A call of cbc_step1_multicore returns the clusters of its own elements, found with its own distance matrix, whatever other calls (of other programs of the same user) run at the same time and whatever earlier calls have left behind.", "quantifier": "all numbers of runs, elements, matrices and orders of events", "why_tests_cant": "all interleavings of several runs", "anchors": ["nephosem/models/cbc.py:cbc_step1_multicore", "nephosem/models/cbc.py:cbc_step1_call", "nephosem/utils.py:clean_dir", "nephosem/utils.py:make_dir"]}
{"id": "C248", "title": "Words that are similar to the same word", "statement": "If two items have cosine similarities of at least 1-e and 1-f to a third one, then their similarity to each other is at least 1-(sqrt(e)+sqrt(f))^2: the square roots of the cosine distances that compute_distance gives obey the triangle inequality.", "quantifier": "all matrices, items and bounds", "why_tests_cant": "all real matrices of any size", "anchors": ["nephosem/specutils/mxcalc.py:compute_cosine", "nephosem/specutils/mxcalc.py:compute_distance"]}
{"id": "C249", "title": "When two tokens are similar", "statement": "With non-negative weights and a non-negative second-order matrix, two tokens have a cosine similarity above 0 (a cosine distance below 1) exactly if a context of the one and a context of the other have a second-order feature in common, whatever the norm of compute_token_vectors; so tokens that share a context with any feature are similar, and tokens may be similar without sharing a context.", "quantifier": "all token-context weights, second-order matrices, norms and pairs of tokens", "why_tests_cant": "all real matrices of any size", "anchors": ["nephosem/specutils/mxcalc.py:compute_token_vectors", "nephosem/specutils/mxcalc.py:compute_cosine", "nephosem/specutils/mxcalc.py:compute_distance"]}
{"id": "C250", "title": "The centroid of a cluster", "statement": "SparseMatrix.controid(cluster) gives the mean of the rows of the cluster, column by column, an id counting as often as it is given and negative ids counting from the end: the order of the ids is irrelevant, the centroid of two clusters together is the mean of theirs weighted by their sizes, and no other point has as small a sum of squared distances to the rows. Without a cluster it is the mean of all rows; exactly empty lists and lists with an id outside of the matrix are refused.", "quantifier": "all sparse matrices and lists of ids", "why_tests_cant": "all real matrices of any size and all lists", "anchors": ["nephosem/core/matrix.py:controid", "nephosem/specutils/mxutils.py:centroid_of_cluster"]}
{"id": "C251", "title": "The kept results of a series of clusterings", "statement": "After a series of clusterings on one machine, the home directory has the committees and residues of every clustering that keeps its results, as the clustering returned them.", "quantifier": "all series of clusterings, machines and home directories", "why_tests_cant": "all sequences of runs of any length", "anchors": ["nephosem/models/cbc.py:cluster", "nephosem/models/cbc.py:save_committees_json", "nephosem/models/cbc.py:save_residues_json"]}
{"id": "C252", "title": "Tokens whose contexts are similar", "statement": "If every context of one token has at least the cosine similarity e >= 0 to every context of another token, by their second-order vectors, then compute_token_vectors (addition, non-negative weights) gives vectors with at least the similarity e, whatever the weights and the norm. There is no such upper bound: tokens can be more similar than any of their contexts.", "quantifier": "all non-negative weights, second-order matrices, norms, pairs of tokens and bounds", "why_tests_cant": "all real matrices of any size", "anchors": ["nephosem/specutils/mxcalc.py:compute_token_vectors", "nephosem/specutils/mxcalc.py:compute_cosine"]}
{"id": "C253", "title": "Adding up or averaging the contexts of a token", "statement": "With non-negative weights, compute_token_vectors with operation 'addition' and with operation 'weightedmean' leads to the same cosine similarities of all pairs of tokens, whatever the normalisation of either, and with normalisation 'l1' or 'l2' to the very same vectors. With negative weights this is not so: the similarity can turn from -1 to 1.", "quantifier": "all non-negative weight matrices, second-order matrices and norms", "why_tests_cant": "all real matrices of any size", "anchors": ["nephosem/specutils/mxcalc.py:compute_token_vectors", "nephosem/specutils/mxcalc.py:compute_cosine"]}
{"id": "C254", "title": "The graph of a list of dependencies", "statement": "Graph.build_graph, given lines with the number of a node, a relation and the number of another node, separated by commas, and the names of the numbers, adds exactly the nodes named by the lines; any two nodes are then joined by the relation of the last line between them, in either direction, and if there is none as before. A line without exactly two commas is a ValueError, a number without a name a KeyError; the graph is then that of the lines before.", "quantifier": "all lists of lines, name tables and graphs to start from", "why_tests_cant": "all texts and tables, repeated and opposite dependencies, and every place of the first bad line", "anchors": ["nephosem/core/graph.py:Graph.build_graph"]}
{"id": "C255", "title": "Features made from one template", "statement": "FeatureGraph objects made from one template are independent of each other and of the template: whatever features are created and whatever set_target and set_feature calls follow in whatever order, the template stays as it is, and in each feature a node is marked as counting unless it was the target, or excluded by the filter, when this feature was last marked; all edges are marked. set_target alone changes no mark. A template without nodes gives no feature (AttributeError).", "quantifier": "all templates and all sequences of creating, retargeting and marking features", "why_tests_cant": "all sequences of operations on objects that could share a graph", "anchors": ["nephosem/deprel/basic.py:FeatureGraph.__init__", "nephosem/deprel/basic.py:FeatureGraph.set_feature", "nephosem/deprel/basic.py:FeatureGraph.set_target", "nephosem/deprel/basic.py:TemplateGraph.__init__", "nephosem/core/graph.py:MacroGraph.set_feature"]}
{"id": "C256", "title": "How similar a cluster is to its centroid", "statement": "An item whose compute_cosine similarity to every member of a cluster is at least e >= 0 has at least this similarity to the centroid of the cluster. If the members have vectors of length 1, the squared length of the centroid is the mean of their similarities over all pairs (an item with itself included), so the length is at most 1, and it is 1 exactly if all members have similarity 1 to each other.", "quantifier": "all matrices, clusters given by positive or negative ids, items and bounds", "why_tests_cant": "all real matrices of any size and all clusters", "anchors": ["nephosem/core/matrix.py:SparseMatrix.controid", "nephosem/specutils/mxcalc.py:compute_cosine"]}
{"id": "C257", "title": "Pointwise mutual information adds up to mutual information", "statement": "compute_ppmi with positive=False and the row and column sums of a matrix of counts as frequencies succeeds whenever the counts are not all 0; the pmi of every pair, weighted by the count of the pair, adds up to at least 0, and it adds up to 0 exactly if every count times the total is the product of its row sum and its column sum, i.e. if rows and columns are independent.", "quantifier": "all matrices of non-negative numbers with a positive total", "why_tests_cant": "a statement about all real matrices of any size, with a case of equality", "anchors": ["nephosem/specutils/mxcalc.py:compute_ppmi"]}
{"id": "C258", "title": "Counting two collocates as one loses information", "statement": "If two columns of a matrix of counts are replaced by one column with their sums (two spellings counted as one collocate, say), compute_ppmi with positive=False and the new row and column sums as frequencies gives pmi values whose sum, weighted by the counts, is never larger than before; it is the same exactly if both columns are proportional to each other. The same holds for two rows that are replaced by one.", "quantifier": "all matrices of non-negative numbers with a positive total and all pairs of columns or rows", "why_tests_cant": "a statement about pairs of real matrices of any size, with a case of equality", "anchors": ["nephosem/specutils/mxcalc.py:compute_ppmi"]}
{"id": "C259", "title": "How large the mutual information can be", "statement": "compute_ppmi with positive=False and the row and column sums of a matrix of counts as frequencies gives pmi values whose sum, weighted by the counts, is at most N times the entropy of the row sums (N being the total), and equals it exactly if every column has counts in one row only; it is at most N times the entropy of the column sums, and equals it exactly if every row has counts in one column only.", "quantifier": "all matrices of non-negative numbers with a positive total", "why_tests_cant": "a statement about all real matrices of any size, with cases of equality", "anchors": ["nephosem/specutils/mxcalc.py:compute_ppmi"]}
{"id": "C260", "title": "Sizes of files are shown in the right unit", "statement": "sizeof shows the size of a file with one decimal in the largest unit in which it is at least 1 (units of 1024 each, up to Y); the number shown is below 1024 (except for Y) and the nearest one with one decimal; files of less than 1024 bytes are shown with their exact size, and a larger file is never shown as a smaller one.", "quantifier": "all sizes", "why_tests_cant": "all natural numbers, including the boundaries between units and between decimals", "anchors": ["nephosem/utils.py:sizeof", "nephosem/utils.py:sizeof_fmt"]}
{"id": "C261", "title": "Objects saved under different names do not share files", "statement": "Two objects saved with SaveLoad.save under two different file names have no file in common, whatever attributes are stored separately; the files of one object are different from each other.", "quantifier": "all pairs of file names (compressed or not) and all attributes at every depth of nested objects", "why_tests_cant": "all strings as file names and all paths of attributes", "anchors": ["nephosem/utils.py:SaveLoad._adapt_by_suffix", "nephosem/utils.py:SaveLoad._save_specials"]}
{"id": "C262", "title": "What cutting off negative values adds", "statement": "With the row and column sums of a matrix of counts as frequencies, compute_ppmi with positive=True gives the positive parts of what it gives with positive=False; the values weighted by the counts add up to at least as much as with positive=False, and to the same exactly if no pair that occurs is rarer than expected by chance.", "quantifier": "all matrices of non-negative numbers with a positive total", "why_tests_cant": "all real matrices of any size, with a case of equality", "anchors": ["nephosem/specutils/mxcalc.py:compute_ppmi"]}
{"id": "C263", "title": "compute_ppmi depends on distributions only", "statement": "With frequencies that are no smaller than the counts, compute_ppmi (with or without negative values) gives a word that is k times as frequent as another one, in all and with every collocate, the same values; it gives the same values if all counts and frequencies are multiplied by a positive number; a value is positive exactly if the pair is more frequent than expected, and negative exactly if negative values are kept and the pair occurs, but more rarely than expected. None of the exceptions of compute_association (expected frequencies of exactly 1) applies.", "quantifier": "all matrices of non-negative numbers, frequencies and positive factors", "why_tests_cant": "all real matrices of any size and all frequencies", "anchors": ["nephosem/specutils/mxcalc.py:compute_ppmi"]}
{"id": "C264", "title": "Which words are similar by compute_ppmi", "statement": "compute_cosine of the matrix that compute_ppmi gives makes the similarity of two words at least 0, and above 0 exactly if there is a collocate that occurs with both more often than expected; words with the same distribution (one k times as frequent as the other, in all and with every collocate) have similarity 1 if they have a collocate that is more frequent than expected.", "quantifier": "all matrices of non-negative numbers, frequencies no smaller than the counts and pairs of words", "why_tests_cant": "all real matrices of any size and all frequencies", "anchors": ["nephosem/specutils/mxcalc.py:compute_ppmi", "nephosem/specutils/mxcalc.py:compute_cosine"]}
{"id": "C265", "title": "Which values of compute_ppmi are larger, and how large they can be", "statement": "With frequencies that are no smaller than the counts, compute_ppmi with positive=False gives, of two pairs that occur, the larger value to the one with the larger quotient of the count and the product of the frequencies, whatever the size of the corpus; no value exceeds the logarithm of the size of the corpus divided by the larger of the two frequencies, and a pair has this value exactly if the rarer of the two never occurs without the other.", "quantifier": "all matrices of non-negative numbers, frequencies no smaller than the counts and pairs that occur", "why_tests_cant": "all real matrices of any size and all frequencies", "anchors": ["nephosem/specutils/mxcalc.py:compute_ppmi"]}
{"id": "C266", "title": "The values of a word that is divided into senses", "statement": "If the rows of two senses of a word are counted together as one row, the counts and the frequencies being added, the value that compute_ppmi with positive=True gives the word with a collocate lies between the values of the two senses; with positive=False it does so for all collocates that occur with both senses.", "quantifier": "all pairs of matrices of non-negative numbers of which one has a word where the other has its two senses, with frequencies no smaller than the counts", "why_tests_cant": "all real matrices of any size and all frequencies", "anchors": ["nephosem/specutils/mxcalc.py:compute_ppmi"]}
{"id": "C267", "title": "Which words get a vector of zeros", "statement": "compute_ppmi with the row and column sums of a matrix of counts as frequencies gives a word a positive value with some collocate, unless the word occurs with every collocate exactly as often as expected by chance; likewise every collocate has a positive value with some word, unless it occurs with every word exactly as often as expected.", "quantifier": "all matrices of non-negative numbers that are not all zero", "why_tests_cant": "all real matrices of any size", "anchors": ["nephosem/specutils/mxcalc.py:compute_ppmi"]}
