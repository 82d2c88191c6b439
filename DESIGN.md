# Formal model of nephosem: design

The model is written in Lean 4 under `lean/Verif/`. It follows the Python source in `/repo/nephosem` function by
function. The Python code is never run here; the tie between code and model is the reading of the source, so every
model definition cites file and lines and says what it simplifies.

## Layout

| Lean modules | Models | Claims |
|---|---|---|
| `Verif/Py/*` | Python dict (insertion-ordered association list), stable sort | helper |
| `Verif/Engine/*` | `core/handler.py` Paralleler as a state machine; the worker loops and result mergers of `models/typetoken.py`, `models/deprel.py` | C01-C08, C13 |
| `Verif/Corpus/Formatter` | what the handlers need of a corpus formatter, abstractly | helper |
| `Verif/Window/*` | `core/terms.py` Window, `update_one_file`, the two `process_right_window` methods | C09-C15 |
| `Verif/Cooc/*` | `ColFreqHandler` on top of Engine, Window and Matrix | C04 |
| `Verif/Vocab/*` | `core/vocab.py`, the dict helpers of `utils.py` | C16-C20 |
| `Verif/Matrix/*` | `core/matrix.py`, `specutils/mxutils.py` | C21-C29, C53-C60 |
| `Verif/Assoc/*` | `specutils/mxcalc.py` | C30-C36, C61-C64 |
| `Verif/Dep/*` | `specutils/deputils.py`, `core/graph.py`, `models/deprel.py` | C37-C42, C65-C70 |
| `Verif/Cbc/*` | `models/cbc.py` | C43-C48, C71-C79 |
| `Verif/Setup/*` | `conf.py`, `BaseHandler.__init__`, file lists, `SaveLoad` | C49-C52, C80-C83 |
| `Verif/Items/*` | `core/terms.py`: CorpusFormatter, ItemNode, TypeNode, TokenNode | C84-C95 |
| `Verif/Front/*` | word queries, vocabulary selection, concordances, token weights | C96-C106 |
| `Verif/Flow/*` | `models/typetoken.py` end to end: the vectorizers, token retrieval, `TypeToken` | C107 and later |

Model files hold definitions, lemma files hold lemmas, and the files `Props*.lean` hold the property theorems with
their specification and their non-vacuity examples.

## Method

* Functions are small total functions over lists, numbers, options and structures. Exceptions are values.
* Concurrent code is a state machine with one constructor per observable action; theorems quantify over all runs.
* Matrices are lists of stored entries with lists of names; the specification reads entries by name.
* Measures are over the reals; a rational or integer witness is used where the code's result is refuted.
* External functions (regular expressions, SciPy, NumPy, scikit-learn, networkx, the file system, random choices) are
  parameters or definitions that state their documented contract; see "Trusted base".
* Every property has a small specification of its own (for example "the number of position pairs (i, j) with …"),
  and the theorem relates it to the model.
* Where the code does not do what the property says, the negation is proved with a witness and a `_partial` theorem
  says when it holds. The list of these is the `partial` part of the table below.

Main arguments: C01-C07 a multiset invariant over the runs of the job/result queues and a decreasing measure;
C09-C15 induction over the lines with a closed form of the window; C16 simulation of a finite map; C17-C18 uniqueness of
sorted permutations; C20 character-level writer and reader; C21-C28, C53-C60 named-entry semantics of stored-entry
lists; C30-C36, C61-C64 real analysis on 2x2 tables; C37 the level-by-level matcher finds exactly the embeddings of
a rooted pattern, by induction over the pattern; C43-C48, C71-C79 loop invariants of the clustering steps;
C49-C52, C80-C83 attribute maps with failure points and a heap for shared dictionaries; C84-C95 strings as
character lists with split/join inverses.

`seeded/LOG.jsonl` records attempts to break the theorems: each line is an edit of a model definition as a realistic
bug (or a fix) would make it, and the declarations that then fail to compile. `theorems_failed` lists the
declarations that fail directly; modules downstream of them are not built, so they are not listed. A lemma that
fails breaks the proof of every theorem that uses it.

## Claims

`proved`: the statement in properties.jsonl is proved. `partial`: what is proved is named `*_partial` (or holds under the condition in the note); `*_false*` theorems prove that the full statement fails for the code as it is.

| Claim | Status | Property | Note |
|---|---|---|---|
| C01 | proved | Parallel frequency list is schedule independent | Every interleaving, any worker count, worker deaths allowed; the formatter (regex) is a parameter. |
| C02 | proved | Every queued file is processed exactly once and all workers stop |  |
| C03 | proved | A crashed worker never yields a wrong frequency list |  |
| C04 | proved | Parallel co-occurrence matrix is schedule independent | Per-file counts are those of C10_exact; they are the textbook counts for files without short segments (C04_textbook_partial). Temporary files are replaced by the matrix they hold (C28). A vocabulary filled by increment makes the worker raise KeyError (C04_false_unfiltered). |
| C05 | partial | Token retrieval keeps every worker's tokens | False: the parent reads len(fnames) results although idle workers put one each. Proved for runs in which every worker got a file, with the exact number of results otherwise. |
| C06 | proved | Dependency matches are schedule independent | The matches of a file are a parameter. |
| C07 | partial | Re-running the dependency builder gives the same counts | False whenever there is a match; exact growth law proved; holds if the templates are read anew. |
| C08 | partial | A handler always has at least one worker | False on one CPU and for a request equal to the CPU count. |
| C09 | proved | The sliding window shows exactly the neighbours |  |
| C10 | partial | Co-occurrence counts equal the textbook definition | False: in a segment of 2..R lines the last line is not counted as a target. Exact formula proved for every file; textbook equality for files without such segments. |
| C11 | partial | Every query occurrence yields one token with its exact context | Fails only for right span 0 with an empty segment (IndexError); proved otherwise. |
| C12 | proved | Contexts never cross a separator line | Stated for a separator between any two parts; for tokens under the condition that no IndexError occurs (see C11). |
| C13 | proved | Type frequencies count exactly the matching lines |  |
| C14 | partial | Swapping the spans transposes the co-occurrence matrix | False at short segments (see C10). |
| C15 | proved | Filtering by column vocabulary commutes with counting |  |
| C16 | proved | Vocab behaves as a finite map under any operation history | Refinement to a finite map over any history for vocabularies built from a plain dict; a vocabulary built from a defaultdict gains zero entries by reads (second and third theorem). |
| C17 | proved | Frequency ranking is total, deterministic and insertion-order free | Ranking is the sorted permutation; depends on the mapping only. |
| C18 | proved | Slicing keeps the most frequent items |  |
| C19 | proved | Selection returns exactly the requested items |  |
| C20 | partial | Plain-text vocabulary files round-trip | False for items that are empty, start with white space or contain a tab or line boundary; exact iff proved. Float frequencies and byte encodings not modelled. |
| C21 | partial | Dict and sparse matrix representations round-trip | False for values of mixed types (the first value decides the dtype) and for booleans (indices are cast too); proved for values of one numeric type. Empty dicts raise ValueError. |
| C22 | partial | Merging matrices adds named entries | Proved for csr matrices; false for transposed (csc) operands with different columns, which are misread. |
| C23 | partial | Submatrix selects by name without changing entries | Proved for csr/csc matrices with any requests; for dense matrices the exact outcome is proved, which is a ValueError when the selection looks symmetric but the names differ. |
| C24 | partial | Reorder, transpose and concatenate preserve named entries | False for symmetric dense matrices (NotImplementedError) and for reading after concatenating columns of csr matrices (TypeError). |
| C25 | proved | Threshold filtering keeps exactly the entries above the cutoff | Proved for every comparison and every number except >= 0 and <= 0, which SciPy refuses. |
| C26 | partial | drop_empty removes exactly the empty rows or columns | Proved for sparse matrices with a non-zero entry; an all-empty matrix gives None (rows) or AttributeError (columns); explicit=True keeps rows of stored zeros. |
| C27 | partial | Token-context matrix records the collocate's position | False: the entry is the greatest signed distance, not the nearest occurrence. |
| C28 | partial | Matrices survive save and load | Proved for csr and dense matrices, names without the .pac clash and no stale files; false for csc matrices (come back transposed or fail), coo matrices, stale files and some names. |
| C29 | partial | Similarity ranks order the neighbours | Ranks proved in full; most_similar can return k+1 items when the item is not strictly closest to itself; sparse and non-symmetric matrices are not supported. |
| C30 | partial | PPMI is the positive part of PMI and never negative | max(0, pmi) and non-negativity in full; the sign rule fails when the expected frequency is exactly 1 (adjust_val replaces it). |
| C31 | partial | The two PPMI implementations agree | Equal cell by cell unless the expected frequency is 1; the two functions also use different totals unless one is passed. |
| C32 | partial | Association measures stay in their ranges | All but the last proved; the log-likelihood ratio can be slightly negative for tables with an empty cell (bounded by C32_llr_bound). |
| C33 | partial | Symmetric measures do not depend on which word is the target | LLR is symmetric only for tables without empty cells. |
| C34 | proved | Association matrices keep the sparsity pattern and items | Floats are reals; final float32 conversion left out. |
| C35 | proved | Token weights pick the type's weight for contexts that occur | For sparse matrices, the kind the library builds. |
| C36 | partial | Token vectors are name-aligned weighted sums | Addition in full for csr matrices; multiplication gives 0 or 1 instead of the product. |
| C37 | partial | Pattern matching finds all embeddings, each once | All embeddings, each once, for rooted patterns with node 1 whose nodes and edges all carry a condition; a node or edge without condition matches nothing, and a condition on line numbers raises TypeError (C37_false_line). Sentences that are not trees are skipped. |
| C38 | partial | Target filter only removes matches | The recorded matches are those whose raw target values joined by the connector are in the target list; with no targets nothing is kept; the filter ignores regex groups while the reported target string uses them. |
| C39 | partial | Sentence reader partitions the matching lines | Sentences are exactly the groups of word lines between separators and each adds its matches; false when a separator has no word line before it: the empty sentence raises ValueError. |
| C40 | partial | Linear patterns are recognised | Proved for trees whose nodes have at most three neighbours; for any tree: no path is missed, and a pattern wrongly called linear has a node with four or more neighbours; a star with four leaves is called linear, a single node is not. |
| C41 | proved | Root and depth of a pattern |  |
| C42 | partial | Full feature strings mention every pattern node | Proved for patterns rooted in node 1; for another root only the part below node 1 is shown. Formats that show line numbers raise TypeError (C42_false_line). |
| C43 | partial | Merging committees uses each committee once | Each committee is in exactly one pair or alone and pairs reach theta1, for all inputs; mutual nearest neighbours are merged only under the conditions of C43_partial: two committees are never merged, ties may split. |
| C44 | partial | Cluster cleaning keeps a minimal representative of every cluster | Duplicates that are not adjacent after sorting by score remove each other, so a minimal cluster can be lost (C44_false). C44_exact says exactly which clusters are kept: the minimal ones whose copies stand together in the ranking. |
| C45 | partial | CBC recursion terminates and accounts for all residues | A round that raises is recorded with no residues, so its elements are lost. |
| C46 | partial | Multicore and single-core CBC step 1 agree | True when every pool task is run in a process of its own; two tasks of one process write the same file and the clusters of the first are lost; on a machine with one processor there are no tasks. |
| C47 | proved | Condensed index is a bijection on unordered pairs |  |
| C48 | proved | Flat clusters partition the elements | fcluster is a parameter giving one label per element. |
| C49 | proved | User configuration overrides defaults and nothing else | ConfigParser is a parameter: the sections, options and raw values of a file in order. |
| C50 | partial | Temporary directory choice | False: the test for output-path is inverted. |
| C51 | partial | File lists resolve to the recorded files | False in handlers: the encoding is passed as the directory. |
| C52 | partial | Saving leaves the object unchanged | False for nested objects when writing a separate file fails; true for objects without inner objects. |
| C53 | partial | Matrix sums are the named marginals | False for a single row (column): TypeError. |
| C54 | partial | drop keeps exactly the rows with enough non-zero entries | False for a single row (column): IndexError. |
| C55 | partial | Merging by name adds entries over both item unions | Proved for integer matrices; fails only if neither operand stores an entry (ValueError). Dense matrices are refused (NotImplementedError). |
| C56 | partial | Merging a list of matrices adds named entries | Proved for integer matrices; fails only if the item lists differ and no matrix stores an entry (ValueError). |
| C57 | partial | Saving and loading a matrix touch only its own files | False: saving packed deletes an unpacked matrix with the same base name. |
| C58 | partial | equal decides equality of matrices | True implies equality always; the converse fails with explicitly stored zeros. |
| C59 | proved | get_colloc_contexts lists the contexts of an item |  |
| C60 | partial | sample keeps the requested number of rows unchanged | Proved for integers and fractions below 1; a float of 1 or more is a TypeError, not a ValueError. |
| C61 | proved | Token vectors are unit vectors or zero | C36_addition states that rows are only divided by their norm. |
| C62 | proved | weightedmean is the weighted mean | C62_signed gives the value for weights of any sign. |
| C63 | proved | Cosine similarity matrix |  |
| C64 | partial | Measures agree with the handbook formulas | chisq, zscore, dice, deltap exact; pmi, lik and logratio within about 1e-10 (per token for lik) because adjust_val replaces 0 and 1; logratio is wrong when the collocate never occurs elsewhere. |
| C65 | partial | Pattern notation is read back as the tree it describes | Proved when no item of a bracketed list contains a comma (lists of several branches not nested) and no white space stands between a later arrow and a bracket; both other cases are misread without error. |
| C66 | partial | Feature strings show every relation in full | Proved if the relation of the target has no colon or the target is an only dependent; otherwise the target label is cut at the first colon. |
| C67 | partial | The matrix of matches counts matches | Proved whenever there is a match; without any match ValueError is raised instead of an empty matrix. |
| C68 | partial | Feature strings do not depend on the target word | Proved if the target is an only dependent or its relation differs from its fellow dependents; otherwise dependents are sorted by a key that contains the target word. |
| C69 | proved | Sentence graphs hold exactly the words and relations of the lines | For formats with node-attr, edge-attr, currID and headID set and well-formed lines. |
| C70 | partial | build_dependency counts all matches of all sentences | Proved end to end when at least one match is recorded; sentences whose graph is not a tree are skipped (SentenceAdds); without targets, or without any match, ValueError. |
| C71 | partial | CBC options change the clustering | False: highest_score is never passed to step 1 and score_func is not used. |
| C72 | partial | Every element of a CBC round ends in a committee or among the residues | False: the committees extended by step 3 are not returned. |
| C73 | partial | score_cluster with highest_score returns the best cluster | Holds if some cluster has a positive score. |
| C74 | partial | Cleaning the clusters loses no element | False: see C44; supersets are dropped with all their elements. |
| C75 | proved | The minsize criterion yields a flat cluster of the requested size | Given the contract of fcluster (elements joined at or below the cut height share a label). |
| C76 | proved | Committees of CBC step 2 are the cleaned clusters, pairwise merged, plus singletons | For rounds whose matrix rows are the elements (see C78); cosine, committee vectors and argsort are parameters. |
| C77 | proved | Committee vectors hold the positive PMI of the committee | Floats are reals. |
| C78 | partial | CBC judges each element by its own matrix row | Holds when the rows are the elements in the same order or a sub-matrix is taken (C45_round, hypothesis Aligned); false otherwise. |
| C79 | partial | A one-element committee has the element's ppmi row as its vector | Equal unless the expected frequency is exactly 1, where compute_association adjusts it. |
| C80 | partial | An unreadable settings file is reported | False: a missing file is read as an empty one. |
| C81 | partial | Constructing a handler leaves the user's files alone | False: the default directory ~/tmp is always emptied. |
| C82 | proved | Without a file list the whole corpus is used | os.walk is a parameter. |
| C83 | partial | Loading gives back what was saved | False: an attribute listed in separately that is no array is silently not stored. |
| C84 | proved | Types, collocates and tokens are the columns the settings name | Regular expressions are a parameter: a match is its groups. |
| C85 | partial | The boundary settings are honoured | False: the two names are swapped in the constructor, so both must be set; left-right raises at the first line that is no item. |
| C86 | partial | Asking for a column the corpus does not have is refused | False: an unknown column gives the whole matched line. |
| C87 | partial | Constructing a formatter does not change the caller's settings | False: colloc is added to the caller's settings. |
| C88 | partial | A formatter with any of the line machines reads lines | False for the three machines other than line-machine. |
| C89 | partial | A type node has the type string it was built from | True for formats without repetition and non-empty strings; false otherwise, and for columns that contain a slash. |
| C90 | partial | Nodes read from a line have the strings the formatter gives | False for formats with columns other than word, lemma, pos. |
| C91 | partial | A token string can be read back | False for files in sub-directories. |
| C92 | partial | Token identifiers are unique in a corpus | True for files of one extension and columns without slash. |
| C93 | partial | Sampling a type node keeps n of its tokens | False for nodes built from strings, such as all those of the token handler: sampling raises. |
| C94 | proved | Merging type nodes keeps every token once, in order |  |
| C95 | partial | A saved type node can be loaded | False: loading always raises. The partial theorem says what the file holds. |
| C96 | proved | A query file gives the queries of its lines |  |
| C97 | partial | A query line with spellings gives every corpus its word and a default | False for words with a colon, which are dropped, and for lines without any entry, whose default is None. |
| C98 | partial | The word of a query is that of the corpus or the default | True if the caller passes the default key; without it, a KeyError for corpora not listed. |
| C99 | proved | Selecting the items of a word |  |
| C100 | partial | Matching a vocabulary by a pattern | True for items; matching the column freq always raises. Regular expressions are a parameter. |
| C101 | partial | Unknown attributes of a vocabulary are reported, and it can be copied | False: unknown names give None, so copy.deepcopy calls None. The method deepcopy works. |
| C102 | partial | Selecting appearances of words | False: NameError for every word. |
| C103 | proved | A type file lists the given types with their frequencies |  |
| C104 | proved | A concordance has one line per token that can be read back |  |
| C105 | partial | The recorded position of a collocate is its nearest | False for repeated collocates: the farthest right, else the farthest left position is recorded. |
| C106 | partial | Token weights are the weights of the type where the context occurs | True for columns in the same order and file identifiers without slash; otherwise weights stand under wrong names or are lost, and a token without contexts is a KeyError. |
| C107 | partial | Fitting a type vectorizer gives the counts of all types of the corpus | True if types and collocates are written alike and no segment has 2 to R lines; C107_exact says what is computed otherwise. |
| C108 | partial | Fitting again depends on the files given only | False: the vocabulary of the first fit is kept; true if the same types occur. |
| C109 | partial | Frequency bounds restrict the fitted vocabulary | False: negative bounds are refused, all others are ignored. |
| C110 | partial | A fitted matrix can be weighted | False: always a TypeError, as the marginal frequencies are not passed; a corpus name that is given is replaced by the last part of the path. |
| C111 | partial | Retrieving tokens gives one row per occurrence with signed distances | False: the greatest, not the nearest distance is recorded for repeated collocates; not covered are workers without file (C165 covers what they return), right span 0 and tokens with equal names (C211). |
| C112 | partial | A column vocabulary of token retrieval only removes columns | False: distances are counted among the collocates in the vocabulary only. C112_exact says what is computed. |
| C113 | partial | A TypeToken model is built step by step | False: after every history each of these methods raises (undefined names, missing arguments) and none of the attributes is ever set; types can be selected if the caller sets the vocabulary. |
| C114 | partial | A TypeToken model keeps similarities, distances and ranks | True for given matrices; without one all of them raise, and distances are kept as the similarities. |
| C115 | partial | The position matrices of types have one row per token | Tokens without a recorded collocate have no row; a type without any makes the whole call a ValueError. |
| C116 | partial | A token vectorizer finds the tokens of its concepts | False: the matrix of tokens is asked for rows named like the variants, which is a KeyError; generate_vectors then raises AttributeError. Only the beginning of generate_vectors is modelled. |
| C117 | partial | Patterns of a GraphML file are read one by one | True if the tags of graphs stand on lines of their own; otherwise graphs are lost or merged without an exception. What networkx reads is a parameter. |
| C118 | partial | Defaults of a GraphML file apply to the elements they are declared for | True if only node attributes have defaults; defaults of edge attributes become conditions of nodes, which no word meets, and the edges stay without. |
| C119 | partial | Macros of an XML file are read as written | Numbers, patterns, nodes, descriptions and attributes are read as written; connectors are ignored, a feature not named by featureID silently becomes the whole pattern, and a macro matches nothing before its filter is set. |
| C120 | partial | Conditions can be given as strings with named groups | True for one or two named conditions without a slash inside; of three conditions one is lost, and conditions with a slash or without a name are refused. |
| C121 | partial | Patterns and macros are read from a table | Patterns are read, but have no number and so cannot be used by macros of an XML file; MacroGraph.read_csv always raises TypeError for a table that is not empty. |
| C122 | proved | Distance matrices hold the named distance of every pair of items | For real numbers. The metric cos, which the code lists but the documentation does not, is refused by scikit-learn. The default, cosine distance, is not a metric. |
| C123 | partial | Association without frequencies uses the sums of the matrix | False: without a total every call fails (TypeError), and arrays with one row or one column fail (IndexError); otherwise true. |
| C124 | partial | Single scores: entropy, mutual information, pairwise association | The entropy of a certain event is not 0 but about 1e-10; mutual information of pairs that do not occur raises; pairwise_association does not know llik. |
| C125 | partial | Indexing by names gives the entries of the named rows and columns | The entries are the right ones. The shape depends on storage and data: a column of a sparse matrix has two dimensions, and a slice that selects one row of a sparse matrix loses one. |
| C126 | partial | Printing a matrix shows its upper left part | Entries that a sparse matrix does not store are shown as NaN though they are 0; negative numbers may raise IndexError. The layout by tabulate is not modelled. |
| C127 | partial | describe gives the share of entries that are not zero | The percentage counts stored entries, so zeros that are stored count, and arrays are always at 100%; a matrix without entries raises ZeroDivisionError. |
| C128 | partial | The undirected graph of a sentence has one node per word and one edge per dependency | False: words with the same lemma and part of speech become one node. The theorems say exactly which graph results, and that the claim holds if all names differ, none is root and no two words are each other's heads. |
| C129 | partial | The older matchers find the paths and targets they are given | False: a template with an edge raises TypeError as soon as a node fits its start, and match_target_feature never records a match. True for templates without edges. |
| C130 | partial | Comparing a matrix with a number marks exactly the entries that satisfy the comparison | A sparse matrix marks only entries it stores, so zeros below 5 are not marked; true if 0 does not satisfy the comparison. Arrays that look symmetric, and >= 0 and <= 0 of sparse matrices, are not implemented; marks that look symmetric under different names raise ValueError. |
| C131 | partial | multiply is the product entry by entry | Names are ignored; a stored zero in the first matrix leaves the entries unmultiplied; an array times a sparse matrix is the matrix product. True for equal names and two sparse matrices without stored zeros, or two arrays. Broadcasting of sparse matrices is not modelled. |
| C132 | partial | Names are found where they are now | The tables are kept once computed, so renaming items in place after a look-up is not noticed; true for every program that does not do that. |
| C133 | proved | A vocabulary and its table are two views of one mapping | Tables are two optional columns; missing values and other columns are not modelled. |
| C134 | proved | Printing a vocabulary shows its extremes | What is printed; the layout of the text is not modelled. |
| C135 | proved | No choice of k items covers more of the corpus than the first k |  |
| C136 | proved | Vocabularies can be cut in steps | Negative bounds are covered by C18, not by this law. |
| C137 | proved | Rows and columns can be selected in steps |  |
| C138 | proved | Transposing commutes with selecting, cutting off and merging |  |
| C139 | proved | Count matrices can be merged in any order |  |
| C140 | proved | Cut-offs compose |  |
| C141 | proved | A corpus can be counted in parts | No worker of build_col_freq dies (see C04); workers of build_item_freq may. |
| C142 | partial | Wider spans never lower a count | False: a wider right span may make a segment a short one, whose last line is no target. True if the right span stays the same, and for files without a segment longer than the old (or 1) and not longer than the new right span. |
| C143 | partial | The counts of a type are the sum over its tokens | False for segments of 2..R lines, whose last line is a token but no target; true for other files; the matrix never has more. |
| C144 | partial | There is one row for every occurrence the frequency list counts | False with more workers than files (ValueError, see C05). Proved for runs in which every worker got a file, right span not 0 and tokens of different names; per file without these conditions whenever reading does not fail. |
| C145 | proved | Selecting and scoring may be exchanged | Selections by lists of different names, for matrices stored in a compressed format, which are those the library builds. |
| C146 | proved | Scores do not depend on which side is the row |  |
| C147 | proved | A more frequent pair is not less associated | Delta P needs marginal frequencies below the total. |
| C148 | proved | Scores of a proportionally larger corpus |  |
| C149 | partial | PMI rises with the pair frequency and does not depend on corpus size | False where the expected frequency or the quotient is exactly 1, because adjust_val replaces 1 by 1-1e-10; true otherwise. |
| C150 | partial | The older template matcher finds the same matches | Proved for trees with at least one edge whose root cannot match ROOT. False otherwise: KeyError at the artificial root, AssertionError for a template of one node, and sentences that are no trees are skipped. |
| C151 | partial | Matching a template from its target finds the same matches | Proved for templates that are lines with the target at one end, in sentences where every step has labels. False with the target in the middle (nothing is found) and at words below the artificial root (KeyError). |
| C152 | proved | The older classes build the graph of a sentence from its lines |  |
| C153 | proved | Counts are bounded by frequencies and spans |  |
| C154 | proved | The order of the files does not matter |  |
| C155 | proved | A token vector depends on its own contexts only | Operation addition. |
| C156 | proved | Token vectors are linear in the weights | Operation addition. |
| C157 | proved | Similarity and distance of two items depend on these two only |  |
| C158 | partial | A matrix written as CSV is read back | False with the default arguments: the row names become a column and the rows are numbered (or a TypeError), and entries that are not stored may come back as nan. True with index_col=0 for arrays, or where pandas fills with 0. |
| C159 | partial | A path template is printed as the line it was read from | False for lines with an odd number of colons: the last field is lost. |
| C160 | partial | The older manager records the matches of every file | False for every corpus in which something should be found: the function and the method called do not exist and the exceptions are only logged. |
| C161 | proved | Merging the results of sub-processes loses and repeats no match |  |
| C162 | proved | Saving stores the large arrays apart, and only these | The documentation says that the limit is in bytes; the code, and this theorem, count numbers. |
| C163 | proved | An object with a missing file is not loaded |  |
| C164 | partial | The older manager processes each file once | False: process does not wait for its threads, and processing a file is a NameError. Proved for every interleaving: files are handed out in order, each entry once; runs are finite; if processing never fails the threads cannot stop before all files are done; as the module is, no file is processed, one file per worker is tried, and the producer waits for ever if there are more files than workers and queue can take. |
| C165 | proved | No false token is ever retrieved | For a right span other than 0, distinct names of occurrences, and row names kept in some order; completeness without dying workers is C111. |
| C166 | proved | A malformed line of a dependency corpus is never ignored | In a worker process the exception ends the worker (C01, C06 say what happens then). Lines that the line machine does not match are no word lines and are skipped. |
| C167 | proved | A vocabulary saved in the default format is loaded unchanged | Integer frequencies. The encoding is the same for both: `save` takes that of the vocabulary by default, `load` takes utf-8. The JSON writer and reader are modelled, the codec is a parameter. |
| C168 | partial | A vocabulary file that was not written to its end is not loaded as another vocabulary | Proved for the default (JSON) format. False for the plain format: a file that lacks its last digit is loaded with another frequency. |
| C169 | partial | Co-occurrence counts do not depend on the machine | Proved for machines with at least two processors and runs without worker deaths. False on one processor: no worker is started and the call gives nothing, without an error. |
| C170 | proved | The older committee selection keeps dissimilar committees and drops only similar ones | The cosine and the vector of a cluster are parameters (C78 has the vector). The function is not called by the rest of the library. |
| C171 | proved | The clusters of similar words partition them and are scored by average similarity | For highest_score=False, as the library calls it. The labels of SciPy and the square root are parameters. |
| C172 | proved | A JSON vocabulary written by another program is read as JSON says | The json module of Python is modelled for objects of integers; surrogate escapes are left out. |
| C173 | proved | Counts by coarser names are the sums of counts by finer names | The two vocabularies of each call must ask for the same lines (SameRequest); empty vocabularies do. |
| C174 | partial | Left and right are treated alike | False for segments of 2 to max(left, right) lines, whose last line is no target if the segment is not longer than the right span; holds for all other files. |
| C175 | partial | A vocabulary saved and loaded with default arguments comes back | False for vocabularies whose encoding is not UTF-8: save uses the encoding of the vocabulary, load UTF-8. Holds for UTF-8, for ASCII items, and if both are given the same encoding. Stateful encodings and byte order marks are not modelled. |
| C176 | partial | A save that fails leaves the file as it was | False: the file is opened for writing before the encoding is looked up and the text encoded. The exact outcome of every case is proved, and that a JSON file that was not written completely is never loaded as another vocabulary. |
| C177 | partial | A vocabulary file of one format is not taken for one of the other | False for JSON files read as plain ones, which always give an empty vocabulary; true for plain files read as JSON. |
| C178 | partial | drop_zero_rows and drop_zero_cols drop exactly the zero rows and columns | False: formats other than coordinate raise AttributeError, rows of stored zeros stay, and the method of a matrix with names answers None. The exact outcome of every call is proved. |
| C179 | partial | A rank is one more than the number of more similar items | False for items of equal similarity, which get different ranks. Proved for all others; with ties the ranks of a group of equally similar items follow directly on the number of items before it. The sorting routines of NumPy are parameters with their documented contract. |
| C180 | partial | Dependency counts of parts add up | False only because a part without matches raises ValueError instead of giving a matrix; if the three matrices exist, the entries add up, for fresh handlers and files that raise no exception. |
| C181 | proved | A line machine of tab-separated columns reads exactly the columns | The expressions are compiled and run by a model of the fragment of re that they need; for all Unicode tables. |
| C182 | partial | The lines of a corpus file are read as they stand | False for lines with line boundaries of Unicode other than the newline (U+2028, U+0085, form feed ...), and for empty first columns, whose tab is stripped; for other lines proved, with the shipped settings, up to the frequencies. |
| C183 | partial | The separator line machine marks exactly the lines with its text | False: re.match finds the text at the beginning of longer lines, too; exact outcome in C183_text; with ^...$ as claimed. |
| C184 | partial | A template edge that names a relation matches exactly this relation | False: re.match finds the word at the beginning of longer relations (nsubj, nsubjpass); exact outcome in C184_prefix; with $ as claimed. |
| C185 | partial | Attributes appear in full in the strings of targets and features | False for (\w+), which stops at the first hyphen, so that mother-in-law and mother are one target; exact outcome for (\w+), (.+) and (word)\w*. |
| C186 | partial | Vocab.match selects what its pattern says | False: plain text selects all items that begin with it, and items with special characters need not select themselves; with ^...$ as claimed for plain text; the documented pattern exactly. |
| C187 | partial | Every word line of a dependency corpus becomes a node of its sentence | False: a line with an empty column is no word line; the word is left out without an exception. Proved for lines whose columns are not empty, in sentences with at least one word and different word numbers, up to the graph of the sentence. |
| C188 | partial | Co-occurrence counts can be read off the text of the corpus | False: in a section of 2 to R items (R the right span) the last item is never a target (as C10_false). Proved from the text for all files without such sections; C188_exact gives the count for all files. |
| C189 | partial | Tokens and their contexts can be read off the text of the corpus | False for right span 0 with an empty section: IndexError, which every file that ends with a boundary line raises. Proved from the text otherwise, and that these are the only failures. |
| C190 | partial | Row sums of a co-occurrence matrix count neighbours | False for segments of 2 to R lines, whose last line is no target; for matrices of one row sum raises (C53). Exact number for all files in C190_exact. |
| C191 | partial | The tutorial's weighting of a corpus is positive pointwise mutual information | False where the expected frequency is exactly 1 (the weight is then off by about 1e-10, since the code adds a small number there), for matrices of one row or column (TypeError) and for segments of 2 to R lines; exact weights from the exact counts in C191_exact. |
| C192 | partial | The vector of a token is the combination of its contexts' vectors | Proved for all occurrences. Not covered, as false: workers that get no file (C05_false), right span 0 (C11_false); occurrences with equal names; weights that sum to 0 (C62_signed). |
| C193 | partial | Every format of columns is counted as its text says | Frequencies as stated. Co-occurrences are false for sections of 2 to R items, whose last item is no target; exact counts in C193_exact. |
| C194 | partial | Templates with one relation count heads and dependents | Proved for sentences whose words hang together from one number that is not a word (an exact condition for networkx is_tree: C69_tree_exact); other sentences are passed over silently, for which the claim is false (C195_false). Columns of the conditions must be node and edge columns of the settings. |
| C195 | partial | The dependency matrix of one relation, from the text of the corpus | Counts only the sentences that hang together; false otherwise (C195_false: a sentence with a cycle gives ValueError or is not counted). |
| C196 | partial | Clustering by committee accepts the arguments it documents | True when all three matrices are given as named matrices. False otherwise: arrays, left out distances and minsize with a word threshold make cluster() return one empty round without an error; left out association measures are a TypeError or IndexError. |
| C197 | partial | Tokens of every column format can be read off the text | False for right span 0 with an empty section: IndexError (C197_false). Proved from the text otherwise, and that these are the only failures. |
| C198 | partial | From the settings and the texts of a corpus to frequencies, counts and weights | False for sections of 2 to R items (C198_false), expected frequencies of 1 (C191_false) and one row or column (C191_single). C198_exact says for all corpora what is counted and weighted; the frequencies are as claimed. |
| C199 | partial | From the settings and the texts of a corpus to token matrices and token vectors | False for vocabularies that leave out what stands between: the entry is the rank among the kept collocates (C199_false). C199_exact says for all vocabularies what the matrix has. Right span 0 and workers without files are C197_false and C05_false. |
| C200 | partial | The collocates of a type are the collocates of its tokens | False for collocates that stand near several tokens: one member per place (C200_false, C200_places); TypeError for tokens made without collocates (C200_none). |
| C201 | partial | The older reader of corpus lines gives the same types as the formatter | False: token_line_machine, which should add file and line number to a line, raises TypeError on every line (C201_false) and a line that does not match is an AttributeError (C201_nomatch). Types and items agree (C201_agree). |
| C202 | partial | A sentence holds the lines of its text that are no tags | False for repeated parsing, which appends the lines again (C202_false); a line end at the end of the text gives an empty line (C202_last). |
| C203 | partial | Meta data of matrices is kept | False: keyword arguments are dropped and no derived or loaded matrix has an attribute that was set (C203_false); an attribute named deep makes selection a TypeError (C203_deep). Proved: attributes that are set are in meta_data, in copies and in the saved file. |
| C204 | partial | The dependency matrix counts the placements of its templates | Sentences that do not hang together are left out of the count, and templates need conditions on every node and edge and a node 1 (C37_false_unconstrained). C204_text starts from the text of the corpus. |
| C205 | partial | From macro files and texts to the dependency matrix | For macro files as the documented layout has them; the connector of the file is not used (C119_connector_false). Sentences that do not hang together are left out. |
| C206 | partial | Warnings stay in the log file | Holds until a handler is constructed; then the log file is deleted for good and warnings are lost (C206_lost). A log file elsewhere keeps all (C206_outside). |
| C207 | partial | Log messages are shown with their arguments | False on the console, which shows the message without its arguments (C207_false); messages without arguments are shown (C207_partial); the log file has the arguments (C207_file). |
| C208 | partial | change_log_file moves the log and changes nothing else | Holds for the logger as the package sets it up (C208_changed). False with a handler of the user, which is removed (C208_false), and if the file cannot be opened: the log is lost, and the next change removes the console (C208_unopened, C208_silent). |
| C209 | partial | Retrieving again gives the tokens of the files given | False: the matrix of a call has the rows of the files of all calls so far (C209_exact, C209_false), and every call multiplies the tokens in the type nodes by the number of workers (C209_tokens, C209_number). For runs in which every worker gets a file and right spans above 0. |
| C210 | partial | The vocabularies of a call hold for that call | False: a call without a vocabulary uses the last one that was given (C210_exact, C210_false). True for calls that give both (C210_partial) and for new handlers (C210_new). |
| C211 | partial | Occurrences in files that differ in their extension have rows of their own | False: occurrences with one identifier share a row, that of the last token in the order of the results (C211_exact), which the schedule decides (C211_false); a matrix has the identifiers as rows, each right for one of its occurrences (C211_partial), or ValueError is raised (C211_error). |
| C212 | partial | Dependency matrices of tokens divide those of types | The sums hold always (C212_sum), and the two modes return a matrix together (C212_exists). False in that files of one name share their rows (C212_exact, C212_false); C212_partial is the claim for files of different names. For names without slashes, jobs without exceptions, and templates with file and line at the end of the target format. |
| C213 | proved | The dependency matrix does not depend on order or numbering | For corpora of sentences that the line format reads and templates that are trees whose target and features name attributes of their conditions; is_tree as networkx documents it. The two calls end alike: the same matrix, or an error in both. |
| C214 | proved | Further conditions of a template never raise a count | If the call with the stricter templates returns a matrix, the other returns one as well, and the entries compare. Same hypotheses as C213. |
| C215 | partial | Distances between tokens follow from the words around them | False for tokens whose vector is zero: their cosine distance is 1, even from themselves. Everything else proved, from the settings and the text of the files in C215_text. As in C192: right span not 0, a file for every worker, names of occurrences distinct. |
| C216 | proved | Only the sentences of a corpus matter | For calls that return; the formats may differ in everything. Rows and columns come in the same order. |
| C217 | proved | A corpus repeated k times | For calls that return; scores over the reals. pmi and ppmi are not exactly the same, as the code moves values of exactly 1 (C149). |
| C218 | proved | Words are only compared with each other | For calls that return; the vocabularies are renamed as well. |
| C219 | proved | Scale of vectors | Values are real numbers; with floats, the results agree up to rounding. |
| C220 | partial | Counts to the left and to the right add up | False for segments of 2 to R lines, whose last line is no target with right span R but is one with right span 0. The difference is given exactly in C220_exact; equality for files without such segments, and never more. |
| C221 | proved | The row of a token is decided by the words within its spans | For names of tokens that are unique (C92); right span 0 is excluded, as nothing is found then (C11). |
| C222 | proved | Matrices can be divided and put together again | Columns concatenated from csr matrices are stored as coo, whose entries cannot be read by name (C24). |
| C223 | partial | The sum of all counts is decided by the lengths of the sentences | False for segments of 2 to R lines, whose last line is no target; the exact sum for all files is in C223_exact, and C223_words holds for all files. |
| C224 | partial | Column sums of a co-occurrence matrix count the lines that see a collocate | False for segments of 2 to R lines; for matrices of one column sum raises (C53). The exact sum for all files is in C224_exact. |
| C225 | partial | The association measures agree on which pairs attract each other | False for logratio if the collocate occurs with the target only (negative although the attraction is total) and for pmi and ppmi if the expected frequency is exactly 1; true otherwise. |
| C226 | proved | How the association measures are related |  |
| C227 | proved | What similarities of 0 and 1 mean |  |
| C228 | proved | Euclidean and cosine distance order vectors of length 1 alike |  |
| C229 | proved | Empty rows and columns can be dropped in any order |  |
| C230 | partial | After dropping rows and columns with few values, all have enough | False: dropping columns takes values from rows that were kept, so a row can end with n values or fewer, and the two orders differ. True for what is dropped last, for the rows if no column was dropped, and for steps along one axis. |
| C231 | partial | Words with the same distribution have the same vector | False if an expected frequency is exactly 1, which calc_pmi replaces by a number below 1; true otherwise. |
| C232 | partial | Words are similar if they share collocates | False if a frequency expected to be exactly 1 is 1: the words do not attract the collocate but are counted as similar. True if no expected frequency is exactly 1; words without a common collocate have similarity 0 with every measure. |
| C233 | proved | How distances depend on the columns |  |
| C234 | partial | A corpus file that cannot be read is reported | False: nothing is raised. Frequency lists and dependency matrices never return; build_col_freq returns the counts of some of the files without fault (None if as many files raise as there are workers, so with one worker and one such file); retrieve_tokens may return with the tokens of files without fault missing. |
| C235 | partial | Templates can be read from a file or given as macros | Proved for macros given by the caller, under the conditions of C70; false for files: every table of templates is a TypeError. |
| C236 | partial | Partial counts are passed on in temporary files and cleaned up | Proved while no handler is constructed that empties the common temporary directory between writing and reading; false otherwise: the parent fails with ValueError. |
| C237 | partial | Spans as long as the sentences count whole sentences | The token part is proved. The counts are exact if every sentence of two or more lines has exactly R + 1 lines and never too high; false otherwise: the last line of a shorter sentence is no target. |
| C238 | partial | Changing one matrix never changes another | Proved by refinement of a memory model to values for all programs without the calls named here; false for submatrix() without names on sparse matrices, which shares the array, and for drop_empty() on sparse matrices without empty rows, which returns the matrix itself. |
| C239 | partial | Changing one vocabulary never changes another | Proved by refinement of a memory model to values for all programs without v.freq and v[()]; these two return the vocabulary itself, and are proved to stay the same as it at all later times. |
| C240 | proved | Correcting one word of a corpus | For all corpora and all runs of the workers that return; the contribution of a word is defined on the lines of the text. |
| C241 | proved | How large association scores can become | Over real numbers. The bound of PMI holds up to the slip 1.0000000002e-10 that comes from the constant the code adds, and exactly outside its two special cases (expected frequency 1; observed equals expected). |
| C242 | partial | Leaving out one word of a corpus | For all corpora and all runs of the workers that return, if the sentence keeps more words than the right span. C242_false: in shorter sentences the last word loses its contexts, so that counts of other pairs can go down. |
| C243 | proved | Neighbours by similarity and by distance | Over the real numbers; the sorting routine is any that sorts. |
| C244 | proved | Joining two sentences of a corpus | For all corpora and all runs of the workers that return; the pairs over the border are defined on the lines of the text. |
| C245 | partial | A clustering is kept in the home directory | The result does not depend on the files, and no other file changes. The results are kept if all rounds are used up and the residues can be written in latin1. C245_never: a run that ends because at most two residues are left or no committee is new keeps nothing. C245_false: the file of the residues breaks off at a word outside latin1. C245_lost: if the directory cannot be made, the results are lost. The JSON text is not modelled. |
| C246 | partial | An object saved to an open file | True for objects that were never saved by name. Saving by name leaves the names of the separate files in the object, so that later C246_stale: large arrays are read from files next to the open file (old contents, or loading fails), and C246_lost: attributes once ignored come back as None. Objects that cannot be pickled are not modelled. |
| C247 | partial | Clusterings do not disturb each other | True if no other run of the same minute does anything between the start and the end of the run; runs of other minutes may interleave in any way, and leftovers of earlier runs do no harm. False for runs of the same minute, which share one directory: C247_emptied (no clusters, no exception), C247_false (clusters found with the matrix of the other run, and clusters of its elements). Events are taken as atomic. |
| C248 | proved | Words that are similar to the same word | Also for rows of zeros. C248_limit: at a similarity of 1/sqrt(2) to the third item, nothing follows. Real numbers in place of floating-point numbers. |
| C249 | proved | When two tokens are similar | For tokens with at least one context that has a feature; the example has tokens without a common context. Real numbers in place of floating-point numbers. |
| C250 | proved | The centroid of a cluster | Lists of Python integers; arrays, sets and lists of truth values are not modelled. Without rows the values are NaN (C250_all). Real numbers in place of floating-point numbers. |
| C251 | partial | The kept results of a series of clusterings | True if no two of them end within the same minute (C251_all). Otherwise the later one replaces the results (C251_replaced), or, if its committees cannot be written, leaves a broken file next to the residues of the earlier one (C251_mixed). |
| C252 | proved | Tokens whose contexts are similar | For tokens with at least one context that has a feature. Real numbers in place of floating-point numbers. |
| C253 | proved | Adding up or averaging the contexts of a token | For weight and second-order matrices in csr format with the same contexts. Real numbers in place of floating-point numbers. |
| C254 | proved | The graph of a list of dependencies | networkx.Graph is modelled by its nodes and labelled edges. |
| C255 | proved | Features made from one template | Graph objects are cells of a heap; networkx copy() gives a new cell. |
| C256 | proved | How similar a cluster is to its centroid | The similarity to the centroid is stated as scalar product and lengths. Real numbers in place of floating-point numbers. |
| C257 | proved | Pointwise mutual information adds up to mutual information | Real numbers in place of floating-point numbers; sparse matrices, as the code requires. |
| C258 | proved | Counting two collocates as one loses information | Real numbers in place of floating-point numbers; sparse matrices, as the code requires. |
| C259 | proved | How large the mutual information can be | Real numbers in place of floating-point numbers; sparse matrices, as the code requires. |
| C260 | partial | Sizes of files are shown in the right unit | False only just below a boundary, where rounding gives 1024.0 of the smaller unit (C260_false); at most 1024.0 is shown. Quotients by 1024 are exact, as floats are for sizes below 2^53 bytes. |
| C261 | partial | Objects saved under different names do not share files | False if one name is the other one with something after a dot (m and m.x). Proved otherwise; the files of one object are different if the names of attributes have no dots, which justifies keeping the parts of file names in lists in the model of save and load. |
| C262 | proved | What cutting off negative values adds | Real numbers in place of floating-point numbers; sparse matrices, as the code requires. |
| C263 | proved | compute_ppmi depends on distributions only | Compare C149_counterexample, C225_false and C231_false, which are about compute_association. Real numbers in place of floating-point numbers. |
| C264 | proved | Which words are similar by compute_ppmi | Compare C231_false and C232_false, which are about compute_association. Real numbers in place of floating-point numbers. |
| C265 | proved | Which values of compute_ppmi are larger, and how large they can be | Compare C241, which is about compute_association. Real numbers in place of floating-point numbers. |
| C266 | proved | The values of a word that is divided into senses | Compare C258, which is about the sum of all values. Real numbers in place of floating-point numbers. |
| C267 | proved | Which words get a vector of zeros | C264 tells what such vectors mean for similarities. Real numbers in place of floating-point numbers. |

## Where the code does not do what its user relies on

Each has a Lean witness (the `*_false*` theorems) unless marked otherwise.

* C04, C05: workers that die, or more workers than files, lose results silently in the accumulating handlers; a
  vocabulary filled by `increment` makes the workers raise `KeyError`.
* C07: `DepRelHandler` keeps the matches of earlier calls, so a second call counts them again.
* C08: one CPU, or a request for as many workers as CPUs, gives no worker; the call then never returns.
* C10, C14: in a segment of 2..R lines (R the right span) the last line is not counted as a target.
* C11: right span 0 with an empty segment raises `IndexError`.
* C20: items that are empty, start with white space, or contain a tab or line boundary are not read back.
* C21: mixed value types are cast to the first value's type; booleans break the indices.
* C22: merging transposed (csc) matrices misreads them. C23, C24: dense selections that look symmetric, reordering
  symmetric matrices and reading after concatenating columns raise.
* C26: an all-empty matrix gives `None` or `AttributeError`. C27: positions are the greatest signed distance.
* C28: csc matrices come back transposed, coo matrices fail, stale files are picked up. C57: packing deletes an
  unpacked matrix with the same base name. C58: stored zeros make equal matrices unequal.
* C29: `most_similar` can return k+1 items. C53, C54: single rows or columns raise. C55, C56: nothing stored raises.
* C30, C31, C79: `adjust_val` changes an expected frequency of exactly 1; the two ppmi functions use different totals.
* C32, C33, C64: the log-likelihood ratio is slightly negative or asymmetric with an empty cell; log ratio is wrong
  when a collocate never occurs elsewhere.
* C36: multiplication of token vectors gives 0 or 1. C60: sample(1.0) is a `TypeError`.
* C37: a pattern node or edge without condition matches nothing; a condition on line numbers, and a format that shows them (C42), raises
  TypeError. C38: no targets, no matches; the filter ignores
  regex groups. C39: two separators in a row raise `ValueError`. C40: a star with four leaves counts as linear.
  C42: only the part below node 1 is shown. C65: nested lists and spaces are misread. C66: the target label is cut at
  a colon. C67, C70: no match at all raises. C68: dependents are sorted by a key that contains the target word.
* C43: two committees are never merged; ties may split. C44, C74: non-adjacent duplicates remove each other.
  C45: a failed round loses its residues. C46: one process overwrites another's results; one CPU gives none.
  C71: options that are ignored. C72: committees extended by step 3 are not returned. C73: no positive score, no
  result. C78: rows are looked up by position.
* C50: the test for `output-path` is inverted. C51: the encoding is passed as the directory of the file list.
  C52: nested objects lose attributes when a write fails. C80: missing settings files are read as empty.
  C81: `~/tmp` is emptied. C83: a listed attribute that is no array is not stored.
* C85: the names of the boundary settings are swapped; `left-right` cannot be read. C86: an unknown column gives the
  whole line. C87: the caller's settings change. C88: three of the four line machines cannot be used.
  C89-C92: `/` in columns and paths. C93: sampling raises for the handler's nodes. C95: loading always raises.
* C97: words with a colon are dropped; C98: the default key must be passed on. C100: matching frequencies raises.
  C101: unknown attributes are `None`, so `copy.deepcopy(vocab)` raises. C102: `NameError`. C105: the farthest position
  is recorded. C106: columns are matched by position; a slash in the file identifier changes the type.
* C107: nothing is counted when types and collocates are written differently. C108: the vocabulary of the first `fit`
  is kept. C109: the bounds are ignored. C110: always a `TypeError`. C111: the greatest distance, not the nearest, is
  recorded. C112: distances are counted among the collocates of the vocabulary only. C113, C114: the methods of
  `TypeToken` raise after every history (undefined names, missing arguments); only similarities, distances and ranks
  of a given matrix work, and distances are kept as similarities. C115: tokens without collocate have no row. C116:
  `TokenVectorizer.retrieve_tokens` raises for every corpus.
* C117: the file is cut at lines that begin with `<graph`, `</graph` and `</graphml`. A file on one line gives no
  pattern at all, a graph closed on the line where it begins is merged with the next one, without an exception.
* C118: defaults of keys for edges are given to nodes; no word has such an attribute, so the pattern matches nothing.
* C119: the connectors of the formats are only used to split the format, strings are joined by `/`. `nodeID` on a
  feature, as in the documentation of `parse_macro_xml`, is ignored. A macro that has just been read has an empty
  filter and matches nothing. A macro for an unknown pattern or with an empty description makes the file unreadable.
* C120: strings are split at the last slash only; the second of three conditions stays inside the first expression.
* C121: `MacroGraph.read_csv` passes a parameter that the constructor does not have.
* C123: `calc_association` has `N=None` as default and never replaces it, so that the subtraction is a `TypeError`;
  `np.squeeze` of the sums of one row or column has no dimension left, so that indexing is an `IndexError`.
* C124: `adjust_val` turns the probability 1 into 0.9999999999, so that the entropy of a certain event is positive;
  `calc_mi` raises for pairs that do not occur; `pairwise_association` does not list `llik`.
* C125: for a sparse matrix `m[:, 'c']` has two dimensions where an array has one, and a slice of names that selects a
  single row has one dimension less than other slices. NumPy integers and lists are refused.
* C126: entries that are not stored are printed as `NaN`; `None` and 0 print everything; negative numbers may raise
  `IndexError`.
* C127: the percentage counts stored entries; arrays are always at 100%; no entries: `ZeroDivisionError`.
* C128: nodes are lemma/part-of-speech strings, so repeated words become one node, and edges have no direction, so the
  last of several dependencies between two nodes wins.
* C129: `match_path` calls `match_edge` with a keyword it does not have; `match_graph` asks for a `Path`, which has no
  `match_node`; `match_target_feature` compares with nodes in a way that fails or never adds a match.
* C130: a sparse matrix marks only stored entries; `>= 0` and `<= 0` of a sparse matrix and all comparisons of arrays that
  look symmetric are not implemented.
* C131: `multiply` ignores names; a stored zero leaves the entries unmultiplied; array times sparse is the matrix product.
* C132: `item2rowid` and `item2colid` are computed once, so renaming in place after a look-up is not noticed.
* C142, C143: a segment with at most as many lines as the right span is processed when it ends, and its last line is then never the
  target.  So widening the right span can lower a count, and the counts of a type are not always those of its tokens.
* C144: with more workers than files `retrieve_tokens` reads the results of idle workers and raises `ValueError` although the query
  occurs.
* C149: `adjust_val` replaces an expected frequency or a quotient that is exactly 1 by `1 - 1e-10`.  So PMI is not quite monotone in
  the pair frequency, and not quite independent of the size of the corpus.
* C150: the older matcher raises a `KeyError` if the root of the template matches the word "ROOT", because the artificial root of a
  sentence has no label.  A template of a single node raises an `AssertionError`.  A sentence that is no tree is skipped, or, if its
  nodes are not numbered from 0 on, raises an `IndexError`.
* C151: `match_target_feature` finds nothing if the target is in the middle of the template, and raises a `KeyError` if it has to go
  up from a word that depends on the artificial root.
* C158: with the default arguments `read_csv` takes the row names written by `to_csv` for a column and numbers the rows
  (`C158_default`), and entries that a sparse matrix does not store may come back as nan (`C158_nan`).
* C159: of a template line with an odd number of colons the last field is dropped without an exception (`C159_lost`).
* C160: `update_dep_rel` is not defined anywhere and `do_job_multicore` is not a method of the handler; both exceptions are logged
  and not raised, so `build_dep_rel` never finds anything (`C160_nothing`).
* C164: `DepRelManager.process` returns without waiting for its threads; `_do_process_job` calls `update_dep_rel`, which the module neither defines nor imports, so that each worker ends with its first file.
* C168: a vocabulary file in the plain format may lack its end and still load, with another frequency for the last item
  (`C168_false_plain`). In the JSON format this cannot happen (`C168_partial`).
* C169: on a machine with one processor `build_col_freq` starts no worker and returns `None` without an error, whatever
  is in the corpus (`C169_false_one_processor`).
* C174: reading a file backwards with the spans exchanged does not give the same matrix if a segment has 2 to `max(left, right)`
  lines: the last line of a segment not longer than the right span is no target, but the first line always is
  (`C174_false`); all other files are treated alike (`C174_partial`).
* C175: `Vocab.save` writes in the encoding of the vocabulary and `Vocab.load` reads UTF-8, so a vocabulary in Latin-1 cannot be
  loaded with default arguments (`C175_false`) or comes back with other items (`C175_false_silent`); for UTF-8 and for ASCII
  items the claim holds (`C175_default`, `C175_ascii`).
* C176: `codecs.open(…, 'w')` empties the file before the encoding is looked up, and the text is written piece by piece: a save
  that fails destroys the file (`C176_false`); exact outcome in `C176_partial`.
* C177: a JSON vocabulary file that is read as `plain` always gives an empty vocabulary without an exception (`C177_partial`,
  `C177_false`); a plain file read as JSON is always refused.
* C178: `drop_zero_rows` and `drop_zero_cols` call a method that does not exist (`to_coo`) unless the matrix is in coordinate
  format, and keep rows of stored zeros; `TypeTokenMatrix.drop_zero_rows` answers `None` (`C178_false`); exact outcome in
  `C178_when`, `C178_rows`, `C178_cols`.
* C179: `compute_simrank` gives items of equal similarity different ranks, in an order that depends on the sorting routine
  (`C179_false`); without ties the rank is one more than the number of more similar items (`C179_partial`).
* C180: a part of a corpus, of the patterns or of the target words without any match has no dependency matrix (`ValueError`,
  `C180_false`); leaving it out changes nothing (`C180_empty`).
* C182: lines are split at all line boundaries of Unicode (`C182_false_break`) and stripped, so that an empty first column moves the
  others (`C182_false_shift`); other files are read as they stand (`C182_partial`, `C182_shipped`, `C182_counts`).
* C183: `re.match` looks for a prefix: lines that begin with the text of the separator are boundaries, too (`C183_false`, exact in
  `C183_text`).
* C184: for the same reason the relation `nsubj` of a template matches `nsubjpass` (`C184_false`, exact in `C184_prefix`).
* C185: the group `(\w+)` of a template stops at the first character that is no word character: `mother-in-law` is counted as
  `mother` (`C185_false`, exact in `C185_word`).
* C186: the text of an item as pattern of `Vocab.match` selects longer items as well, or not even the item itself if it has special
  characters (`C186_false`, exact in `C186_partial`).
* C187: a word line with an empty column is left out of its sentence without an exception (`C187_false`); otherwise the text of a
  dependency corpus is read as its sentences (`C187_partial`).
* C188: as C10, from the text: the last item of a section of 2 to `R` items is never a target (`C188_false`); the exact number for
  every text is `C188_exact`.
* C189: as C11, from the text: right span 0 and an empty section give `IndexError` (`C189_false`).
* C190: the last line of a segment of 2 to `R` lines adds nothing to the sum of its row (`C190_false`); exact sums in `C190_exact`.
* C191: where the expected frequency is exactly 1 the weight is too large by about 1e-10 (`C191_false`); matrices of one row or column
  raise `TypeError` (`C191_single`).
* C193: with the tutorial's spans the last word of a sentence of two words has no neighbours (`C193_false`); exact in `C193_exact`.
* C194, C195: a sentence whose words do not all hang from one root is passed over without a message, so its pairs are not counted
  (`C195_false`); which sentences are kept is exact in `C69_tree_exact`.
* C196: plain arrays (documented for all three matrices of `CBC`), a left out `distmx`, and `prune_method='minsize'` with a word
  threshold such as the default make `cluster()` return one empty round without an error (`C196_arrays`, `C196_no_distances`,
  `C196_minsize`); a left out `measmx` raises TypeError or IndexError (`C196_no_association`).
* C197: right span 0 and an empty section: IndexError (`C197_false`).
* C198: sections of 2 to R items lose the pairs of their last item (`C198_false`).
* C199: a column vocabulary that leaves out what stands between makes the entry the rank among the kept collocates, not the distance
  (`C199_false`); exact in `C199_exact`.
* C200: `TypeNode.collocs` has one member per place, equal collocates are not merged (`C200_false`); tokens made without collocates:
  TypeError (`C200_none`).
* C201: `Getter.token_line_machine` raises TypeError on every line (`C201_false`); a line that does not match is an AttributeError
  there (`C201_nomatch`).
* C202: `Sentence.parse` called again appends the same lines again (`C202_false`).
* C203: keyword arguments of the constructor are dropped, and derived or loaded matrices have none of the attributes that were set
  (`C203_false`); an attribute `deep` makes `submatrix` a TypeError (`C203_deep`).
* C206: the log file `~/tmp/nephosem.log` lies in the directory that every constructor of a handler empties; from then on warnings go to a deleted file (`C206_lost`).
* C207: the formats of the console use `%(msg)s`, not `%(message)s`, so that messages are shown with `%s` instead of their arguments (`C207_false`).
* C208: `change_log_file` removes the last handler, whatever it is: with a handler of the user it removes that one (`C208_false`). It removes before it opens the file, so that a path that cannot be opened ends the log, and the next call removes the console (`C208_unopened`, `C208_silent`).
* C209: a `TokenHandler` keeps what it found, and the workers of the next call begin with it: later matrices contain the rows of earlier files, and token lists are multiplied by the number of workers (`C209_exact`, `C209_number`).
* C210: a `ColFreqHandler` keeps the vocabularies of a call for the following calls (`C210_false`).
* C211: identifiers of tokens have the name of the file without its extension; where files share it, one row of several is kept, and the order in which the workers deliver their results decides which (`C211_false`).
* C212: in token mode the dependency handler drops directories and extensions from the names of files; the matches of equally named files are added up in one row (`C212_false`).
* C220: a segment of 2 to R lines has its last line as a target with right span 0, but not with right span R, so that the counts to the left and to the right may add up to more than the counts within both spans.
* C223, C224: the last line of a segment of 2 to `R` lines is missing from the sum of all counts (`C223_false`) and from the column sums
  (`C224_false`); exact sums in `C223_exact` and `C224_exact`.
* C225: the log ratio of a collocate that occurs with one target only is negative, while all other measures report attraction
  (`C225_false_exclusive`, `C225_false`); pmi is positive for an observed and expected frequency of 1 (`C225_false_one`).
* C230: dropping rows and then columns with at most n values can leave rows with n values or fewer (`C230_false`), and the other order
  leaves other rows (`C230_false_order`).
* C231, C232: because `calc_pmi` replaces an expected frequency of exactly 1, words with proportional counts can have different vectors
  (`C231_false`), and words that attract no common collocate can be similar (`C232_false`).
* C234: an exception in a worker is not passed on. If a file cannot be read, build_item_freq and build_dependency wait for ever, and build_col_freq and retrieve_tokens can return results that lack the counts of that file and of all files that the same worker had processed before.
* C235: `read_templates(fname=...)`, as its documentation shows it, raises `TypeError` for every table of templates (`C235_false_file`).
* C236: the constructor of every handler empties `~/tmp`, also what workers of another running program have put there: that program fails with `ValueError` when it reads its partial counts (`C236_false_clean`).
* C237: with spans longer than a sentence the last word of the sentence is no target, so that its counts with all words before it are missing (`C237_false`; what is counted is `C237_exact`).
* C238: `submatrix()` without names on a sparse matrix returns a matrix that shares its array, and `drop_empty()` on a sparse matrix without empty rows returns the matrix itself; a change of the result changes the original (`C238_false`, `C238_selection`, `C238_dropped`).
* C239: `vocab.freq` and `vocab[()]` return the vocabulary itself, so that a change of the result is a change of the vocabulary (`C239_false`, `C239_same`).
* C242: leaving out a word can lower the counts of other pairs: if its sentence keeps at most as many words as the right span, the last word of the sentence is no longer counted as a target (see C10).
* C245: `CBC.cluster` writes its results to `~/.cbc` only if all `num_iter` rounds are used up (or no element was given): the usual ends of a run, at most two residues or no new committee, return before. The residues are written in latin1, so that the file breaks off at other words (the exception is caught); if the directory cannot be made, the exception is not caught and the results are lost.
* C246: `SaveLoad.save` with a file name leaves the lists of separately stored and ignored attributes in the object. If the same object is then saved to an open file, everything is stored in that file, but `load` still follows the lists: it reads the large arrays from files next to it (which are missing or old) and sets the attributes once ignored to `None`.
* C247: the multicore step 1 of the clustering uses a directory named after the minute (the docstring shows one named after the process), and empties it at its start. Two runs that start within the same minute share it: the matrix of the first is removed or replaced before its processes read it, so that the first run silently returns no clusters, or clusters found with the other matrix together with those of the other run.
* C251: the directory of the kept results is named after the minute in which a clustering ends. Two clusterings that end within the same minute write to the same files, so that only the results of the later one can be found, or a mixture of both.
* C260: a file whose size is just below the next unit is shown as `1024.0` of the smaller one (1048575 bytes: `1024.0KB`), as the number is rounded after the unit has been chosen.
* C261: an object saved as `m` with a sparse matrix `x` and one saved as `m.x` with an array `data` both use the file `m.x.data.npy`, so that saving one of them destroys the other.
* C215: two tokens of one type with the same contexts have the cosine distance 1, not 0, if their vector is zero (`C215_false`).

## The model against recorded outputs of the code

The code cannot be run here, but the notebooks in `/repo/docs/tutorials` were saved with the outputs of a run on the twelve files of
`/repo/nephosem/tests/data/StanfDepSents`. `Verif/Check/Tutorial.lean` evaluates the model on the same files and settings (settings, formatter,
regular expressions, workers and queues, windows, matrices, templates, printed tables) and `#guard`s compare the results with what the
notebooks show. `Verif/Check/Formulas.lean` does so for association measures, token weights, token vectors and cosine distances, whose formulas
are written down once more for floating point numbers, because those of the model are about real numbers.

All outputs agree: frequency lists, selections and sortings of vocabularies; the co-occurrence matrix with its 606 stored elements, its
submatrices, `drop`, comparison and `multiply`; tokens with their signed distances; dependency matrices of three sets of templates for types
and tokens; PMI, PPMI, token vectors, two tables of distances. The 606 elements also confirm one of the disagreements above in a run of the code
itself: counting all neighbours (the textbook definition in C10) would give 610; the code loses the last word of the two sentences of four words.

`Verif/Check/UnitTests.lean` evaluates what the tests in `/repo/nephosem/tests` assert about vocabularies, matrices, formatters, items, PMI and
log-likelihood, committees (these are the developers' expectations, not recorded outputs). They hold in the model; one table that no test uses
(`freq_dict` of `test_typetoken.py`) has an item "apples/NNP" where the corpus in the repository has the lemma "apple".

These checks are tests of the model, they are not among the theorems and no claim relies on them. When wrong programs are tried (see
`seeded/LOG.jsonl`), these modules are left out, so that a wrong program counts as detected only if a theorem fails.

## Trusted base

* Lean 4.33.0 kernel, with the axioms `propext`, `Classical.choice` and `Quot.sound` at most (per theorem below). No
  own axioms, no `sorry`, no `native_decide`, no `bv_decide`.
* The reading of `/repo` recorded in the comments of each definition; Python's semantics of dict order, slicing,
  sorting (stable), string methods and integer arithmetic as modelled in `Verif/Py`, `Verif/Vocab/Plain` and
  `Verif/Items/Text`.
* Floats are real numbers (or rationals or integers where only comparison and addition matter); rounding, overflow,
  NaN and the conversion to float32 are not modelled. Encodings are not modelled; strings are character lists.
* Contracts of libraries, stated in the model as definitions or hypotheses: `re` (pattern and line to optional groups in most modules;
  in `Verif/Regex` the fragment of characters, classes, `*`, `+`, `?`, groups, alternatives and anchors is compiled and run, with
  the Unicode tables of `\w` and `\d` as parameters; other syntax is outside of it);
  SciPy sparse construction (duplicates add up), slicing, comparison, `multiply`, `vstack`, `save_npz`;
  `csr_matrix(dense)` drops zeros; NumPy `argsort`, `argpartition` (a permutation with the documented order),
  `random.choice`, `argmax`, `where`; scikit-learn `normalize`, `cosine_similarity`, `pairwise_distances` (with refusal of arrays without rows or columns); `linkage`/`fcluster` (one label
  per element, elements joined at or below the cut share a label); networkx `is_tree`, degrees, successors,
  `Graph` (undirected, edges overwritten); NumPy and SciPy subscripts; `tabulate` (layout);
  `ConfigParser` (sections, options, values in order); `os.walk`, `os.path`; `pickle` and JSON give back what was
  written; `multiprocessing` queues are FIFO and lose nothing; `random.sample` gives distinct elements.
* Not modelled: what log messages of single functions say (`nephosem/logging.py` itself is modelled), progress bars, plotting, timing, memory, and the functions listed at the end.

## Axioms per theorem

Output of `#print axioms` for the theorems of MANIFEST.json (theorem names without `Verif.`).

**No axioms** (10): Dep.C40_false_single, Items.Old.C201_false, Items.Old.C202_false, Matrix.C131_names_ignored, Matrix.C53_false_single, Matrix.uniform_int, Setup.C50_false_neither, Setup.C50_false_output, Vocab.C16_defaultdict_read_inserts, Window.C14_false.

**propext** (41): Assoc.C35_refused, Assoc.C35_token_type, Cbc.C247_false, Cbc.C46_false_one_cpu, Cooc.C143_counterexample, Dep.Basic.C255_empty, Dep.C129_target_fails, Dep.Manager.C159_file, Dep.Threads.C164_false, Engine.C05_false, Flow.C110_false, Flow.C110_name, Flow.C116_failed_attr, Front.C101_usual, Front.C102_never, Front.C106_slash, Items.C200_none, Items.C94_append, Items.Old.C201_nomatch, Items.Old.C202_last, Items.Old.C202_partial, Matrix.C125_shape_counterexample, Matrix.C126_counterexample, Matrix.C126_nan_is_zero, Matrix.C132_counterexample, Matrix.C178_false, Matrix.C178_when, Matrix.C24_concat_refuses, Matrix.C24_reorder_empty, Matrix.C25_zero_refused, Matrix.C55_dense_refused, Setup.C260_false, Setup.C50_partial, Setup.C80_false_loader, Setup.C81_false_output, Setup.C81_partial, Setup.Save.C246_false, Setup.Save.C52_false_inner, Setup.Save.C52_false_outer, Setup.Save.C83_false, Vocab.C134_small.

**Quot.sound, propext** (90): Cbc.C170_selection, Cbc.C171_index, Cbc.C245_result, Cbc.C247_emptied, Cbc.C43_false_two, Cbc.C45_round, Cbc.C46_exact, Cbc.C48_remap_missing, Cbc.C48_scores, Cbc.C71_false_ignored, Cbc.C71_score_func, Cbc.C73_none, Cbc.C73_partial, Cooc.C210_exact, Cooc.C234_false_tokens, Dep.Basic.C150_false_root, Dep.Basic.C150_false_single, Dep.Basic.C150_not_tree, Dep.Basic.C151_false_middle, Dep.Basic.C151_false_up, Dep.Basic.C152_worded, Dep.C118_exact, Dep.C118_false, Dep.C118_partial, Dep.C129_target_none, Dep.C166_malformed, Dep.C166_unnamed, Dep.C37_false_line, Dep.C37_false_unconstrained, Dep.C37_injective, Dep.C37_not_tree, Dep.C38_target_string, Dep.C39_lines, Dep.C40_false_star, Dep.C41_no_node_one, Dep.C41_root_unique, Dep.C42_false_line, Dep.Manager.C159_lost, Dep.Manager.C159_partial, Dep.Manager.C160_false, Dep.Manager.C160_nothing, Dep.Manager.C160_partial, Engine.C02_runs_finite, Engine.C08_false_all_cpus, Engine.C08_false_one_cpu, Engine.C08_no_worker_blocks, Engine.C08_workers_partial, Engine.C13_total, Flow.C116_exact, Flow.C116_rows, Flow.C209_number, Items.C200_places, Items.Old.C201_agree, Matrix.C126_negative, Matrix.C131_refused, Matrix.C22_rows_differ, Matrix.C24_false_concatCols_read, Matrix.C24_false_symmetric, Matrix.C24_reorder_unknown, Matrix.C24_transpose_partial, Matrix.C26_dense, Matrix.C29_unsupported, Matrix.C54_false_single, Matrix.C56_false_empty, Matrix.C59_unknown, Matrix.Meta.C203_deep, Matrix.Meta.C203_false, Matrix.Meta.C203_partial, Setup.C260_bytes, Setup.C49_given, Setup.C49_load, Setup.C49_refused, Setup.C80_false, Setup.C81_false, Setup.Save.C246_only, Setup.Save.C246_partial, Setup.Save.C52_flat, Setup.Save.C52_partial, Vocab.C133_table, Vocab.C133_views, Vocab.C16_defaultdict_reads, Vocab.C19_compare_means, Vocab.C19_select_compare, Vocab.C19_select_freqs, Vocab.C19_select_items, Vocab.C19_select_tuple, Vocab.C19_subvocab, Vocab.Mem.C239_false, Vocab.Mem.C239_same, Window.C11_token_count.

**Classical.choice, Quot.sound, propext** (808): Assoc.C122_axis, Assoc.C122_cosine, Assoc.C122_cosine_detour, Assoc.C122_euclidean, Assoc.C122_manhattan, Assoc.C122_metric, Assoc.C122_refused, Assoc.C122_similarity, Assoc.C123_defined_partial, Assoc.C123_given, Assoc.C123_no_total, Assoc.C123_one_row_or_column, Assoc.C123_partial, Assoc.C123_ppmi_one_column, Assoc.C123_ppmi_partial, Assoc.C124_entropy_actual, Assoc.C124_entropy_false, Assoc.C124_entropy_negative, Assoc.C124_entropy_partial, Assoc.C124_mi, Assoc.C124_mi_zero, Assoc.C124_pairwise, Assoc.C145_selection, Assoc.C146_transpose, Assoc.C147_deltap, Assoc.C147_ppmi, Assoc.C147_zscore_dice, Assoc.C148_invariant, Assoc.C148_linear, Assoc.C148_zscore, Assoc.C149_counterexample, Assoc.C149_counterexample_size, Assoc.C149_partial, Assoc.C155_local, Assoc.C156_scale, Assoc.C156_sum, Assoc.C157_local, Assoc.C157_selection, Assoc.C219_cosine, Assoc.C219_distance, Assoc.C225_false, Assoc.C225_false_exclusive, Assoc.C225_false_one, Assoc.C225_partial, Assoc.C225_table_partial, Assoc.C226_chisq, Assoc.C226_dice, Assoc.C226_zscore, Assoc.C227_nonneg, Assoc.C227_one, Assoc.C228_order, Assoc.C228_tokens, Assoc.C228_unit, Assoc.C229_cosine, Assoc.C229_distance, Assoc.C229_order, Assoc.C229_sums, Assoc.C230_false, Assoc.C230_false_order, Assoc.C230_partial, Assoc.C230_steps, Assoc.C231_false, Assoc.C231_partial, Assoc.C232_disjoint, Assoc.C232_false, Assoc.C232_partial, Assoc.C233_cosine, Assoc.C233_distances, Assoc.C233_select, Assoc.C241_chisq, Assoc.C241_lik, Assoc.C241_matrix, Assoc.C241_pmi, Assoc.C241_pmi_reached, Assoc.C241_zscore, Assoc.C243_cosine, Assoc.C243_euclidean, Assoc.C243_tokens, Assoc.C248_four, Assoc.C248_limit, Assoc.C248_root, Assoc.C248_third, Assoc.C249_common, Assoc.C249_similar, Assoc.C250_all, Assoc.C250_least, Assoc.C250_mean, Assoc.C250_merge, Assoc.C250_order, Assoc.C250_refused, Assoc.C252_above, Assoc.C252_contexts, Assoc.C253_negative, Assoc.C253_same, Assoc.C253_similar, Assoc.C256_length, Assoc.C256_near, Assoc.C257_information, Assoc.C257_sums, Assoc.C258_merge, Assoc.C258_rows, Assoc.C259_bound, Assoc.C262_cut, Assoc.C263_distribution, Assoc.C263_sign, Assoc.C263_size, Assoc.C264_one, Assoc.C264_similar, Assoc.C265_bound, Assoc.C265_rank, Assoc.C266_between, Assoc.C266_positive, Assoc.C267_collocate, Assoc.C267_word, Assoc.C30_defined, Assoc.C30_false, Assoc.C30_nonneg, Assoc.C30_positive_exact, Assoc.C30_positive_partial, Assoc.C30_ppmi_is_positive_part, Assoc.C31_agree_partial, Assoc.C31_agree_pmi_partial, Assoc.C31_false, Assoc.C31_false_default, Assoc.C31_false_totals, Assoc.C31_matrix_partial, Assoc.C32_chisq, Assoc.C32_deltap, Assoc.C32_dice, Assoc.C32_false_llr, Assoc.C32_llr_bound, Assoc.C32_llr_nonneg_partial, Assoc.C32_zero_margin, Assoc.C32_zscore, Assoc.C33_false_llr, Assoc.C33_false_llr_value, Assoc.C33_llr_partial, Assoc.C33_symmetric, Assoc.C34_cells, Assoc.C34_defined, Assoc.C34_named, Assoc.C34_refused, Assoc.C35_row_order, Assoc.C35_weights, Assoc.C36_addition, Assoc.C36_addition_raw, Assoc.C36_false_multiplication, Assoc.C36_multiplication_actual, Assoc.C36_order_irrelevant, Assoc.C36_refused, Assoc.C36_refused_coo, Assoc.C36_refused_format, Assoc.C61_unit_norm, Assoc.C62_signed, Assoc.C62_weighted_mean, Assoc.C63_axis, Assoc.C63_cosine, Assoc.C63_empty, Assoc.C63_scale_invariant, Assoc.C64_chisq, Assoc.C64_deltap, Assoc.C64_dice, Assoc.C64_false_logratio, Assoc.C64_llr_near, Assoc.C64_llr_partial, Assoc.C64_logratio_near, Assoc.C64_pmi_near, Assoc.C64_pmi_partial, Assoc.C64_pmi_zero, Assoc.C64_zscore, Cbc.C170_pairs, Cbc.C170_returns, Cbc.C171_clusters, Cbc.C196_arrays, Cbc.C196_minsize, Cbc.C196_no_association, Cbc.C196_no_distances, Cbc.C196_partial, Cbc.C245_false, Cbc.C245_first, Cbc.C245_kept_partial, Cbc.C245_lost, Cbc.C245_never, Cbc.C245_others, Cbc.C247_partial, Cbc.C251_all, Cbc.C251_false, Cbc.C251_mixed, Cbc.C251_partial, Cbc.C251_replaced, Cbc.C43_false_tie, Cbc.C43_once, Cbc.C43_partial, Cbc.C44_antichain, Cbc.C44_exact, Cbc.C44_exact_part, Cbc.C44_false, Cbc.C44_from_input, Cbc.C44_partial, Cbc.C44_scores_partial, Cbc.C44_singletons, Cbc.C45_false, Cbc.C45_partial, Cbc.C45_rounds, Cbc.C46_false, Cbc.C46_partial, Cbc.C47_average, Cbc.C47_between, Cbc.C47_index, Cbc.C47_outside, Cbc.C47_small, Cbc.C48_partition, Cbc.C48_remap, Cbc.C71_false, Cbc.C72_false, Cbc.C72_partial, Cbc.C73_false, Cbc.C74_false, Cbc.C74_partial, Cbc.C75_distance, Cbc.C75_minsize, Cbc.C75_unknown, Cbc.C76_committees, Cbc.C77_order, Cbc.C77_sign, Cbc.C77_vector, Cbc.C78_false_rows, Cbc.C78_false_subset, Cbc.C79_false, Cbc.C79_near, Cbc.C79_partial, Cbc.greedy_unique, Cooc.C04_deaths_never_overcount, Cooc.C04_deterministic, Cooc.C04_false_deaths, Cooc.C04_false_unfiltered, Cooc.C04_matrix, Cooc.C04_textbook_partial, Cooc.C141_freq, Cooc.C141_matrix, Cooc.C142_counterexample, Cooc.C142_left, Cooc.C142_partial, Cooc.C143_never_more, Cooc.C143_partial, Cooc.C144_file, Cooc.C153_bounds, Cooc.C154_freq, Cooc.C154_order, Cooc.C169_false_one_processor, Cooc.C169_partial, Cooc.C173_freq, Cooc.C173_matrix, Cooc.C174_false, Cooc.C174_partial, Cooc.C190_exact, Cooc.C190_false, Cooc.C190_partial, Cooc.C191_exact, Cooc.C191_false, Cooc.C191_partial, Cooc.C191_single, Cooc.C210_false, Cooc.C210_new, Cooc.C210_partial, Cooc.C216_counts, Cooc.C216_freq, Cooc.C217_counts, Cooc.C217_freq, Cooc.C217_scores, Cooc.C218_counts, Cooc.C218_freq, Cooc.C218_scores, Cooc.C219_corpus, Cooc.C220_exact, Cooc.C220_false, Cooc.C220_never_more, Cooc.C220_partial, Cooc.C223_exact, Cooc.C223_false, Cooc.C223_partial, Cooc.C223_words, Cooc.C224_exact, Cooc.C224_false, Cooc.C224_partial, Cooc.C234_false_counts, Cooc.C234_partial_blocks, Cooc.C234_partial_counts, Cooc.C234_partial_one_worker, Cooc.C236_counts_partial, Cooc.C236_elsewhere_partial, Cooc.C236_false_clean, Cooc.C236_shares, Cooc.C237_exact, Cooc.C237_false, Cooc.C237_partial, Cooc.C237_tokens, Cooc.C237_upper, Cooc.C240_bound, Cooc.C240_exact, Cooc.C240_others, Cooc.C242_ends_partial, Cooc.C242_exact_partial, Cooc.C242_false, Cooc.C242_others_partial, Cooc.C244_exact, Cooc.C244_long, Cooc.C244_never_lower, Dep.Basic.C150_agree, Dep.Basic.C150_partial, Dep.Basic.C151_partial, Dep.Basic.C152_empty, Dep.Basic.C152_not_a_number, Dep.Basic.C152_read, Dep.Basic.C255_marks, Dep.C117_exact, Dep.C117_false, Dep.C117_partial, Dep.C119_connector, Dep.C119_connector_false, Dep.C119_description, Dep.C119_feature_false, Dep.C119_missing, Dep.C119_no_match, Dep.C119_numbers, Dep.C119_partial, Dep.C119_unknown_pattern, Dep.C120_false_plain, Dep.C120_false_slash, Dep.C120_false_three, Dep.C120_partial, Dep.C121_false, Dep.C121_partial, Dep.C128_counterexample, Dep.C128_distinct_partial, Dep.C128_not_a_number, Dep.C128_partial, Dep.C128_unknown_head, Dep.C129_graph_counterexample, Dep.C129_graph_partial, Dep.C180_empty, Dep.C180_false, Dep.C180_files_partial, Dep.C180_patterns_partial, Dep.C180_targets_partial, Dep.C194_partial, Dep.C204_distinct, Dep.C204_partial, Dep.C212_exact, Dep.C212_exists, Dep.C212_false, Dep.C212_partial, Dep.C212_sum, Dep.C213_order, Dep.C214_stricter, Dep.C235_false_file, Dep.C235_nothing, Dep.C235_targets, Dep.C235_used_templates_partial, Dep.C254_graph, Dep.C254_stop, Dep.C37_partial, Dep.C38_false_group, Dep.C38_false_no_targets, Dep.C38_partial, Dep.C39_false_empty, Dep.C39_partial, Dep.C39_sentences, Dep.C40_any_degree, Dep.C40_partial, Dep.C41_depth, Dep.C41_root, Dep.C42_false_root, Dep.C42_partial, Dep.C65_false_nested, Dep.C65_false_space, Dep.C65_partial, Dep.C66_false_colon, Dep.C66_partial, Dep.C67_counts, Dep.C67_false_none, Dep.C67_partial, Dep.C68_false_order, Dep.C68_partial, Dep.C69_graph, Dep.C69_tree, Dep.C69_tree_exact, Dep.C70_false_no_targets, Dep.C70_partial, Dep.Manager.C159_false, Dep.Manager.C161_merge, Dep.Manager.C161_refused, Dep.Threads.C164_complete_partial, Dep.Threads.C164_each_once_partial, Dep.Threads.C164_real, Dep.Threads.C164_real_end, Engine.C01_freq_list, Engine.C01_returns, Engine.C02_completes, Engine.C02_each_file_once, Engine.C02_maximal_run, Engine.C03_death_with_file_blocks, Engine.C03_never_undercounts, Engine.C05_tokens_partial, Engine.C06_first_call, Engine.C07_false, Engine.C07_kth_call, Engine.C07_reread_partial, Engine.C13_file_freq, Engine.C13_split, Flow.C107_exact, Flow.C107_false_formats, Flow.C107_fit_partial, Flow.C108_false, Flow.C108_same_types_partial, Flow.C108_second_fit, Flow.C109_false, Flow.C109_ignored, Flow.C109_negative, Flow.C110_call_partial, Flow.C111_false, Flow.C111_nothing, Flow.C111_retrieve_partial, Flow.C112_exact, Flow.C112_false, Flow.C112_vocabulary_partial, Flow.C113_errors, Flow.C113_false, Flow.C113_new, Flow.C113_queries_samples, Flow.C113_retrieve, Flow.C113_select_empty, Flow.C113_select_partial, Flow.C113_select_refused, Flow.C113_unchanged, Flow.C114_distance, Flow.C114_false, Flow.C114_given_ranks, Flow.C114_metric, Flow.C114_rank, Flow.C114_similarity_partial, Flow.C115_attribute, Flow.C115_attribute_used, Flow.C115_false, Flow.C115_matrix_partial, Flow.C115_nothing, Flow.C115_types, Flow.C116_false, Flow.C116_generate, Flow.C116_queries, Flow.C144_counterexample, Flow.C144_rows_partial, Flow.C165_sound, Flow.C192_partial, Flow.C209_exact, Flow.C209_false, Flow.C209_tokens, Flow.C211_error, Flow.C211_exact, Flow.C211_false, Flow.C211_partial, Flow.C215_false, Flow.C215_partial, Flow.C221_row, Front.C100_freq, Front.C100_match_partial, Front.C101_attribute, Front.C101_deepcopy, Front.C101_false, Front.C101_method, Front.C102_false, Front.C102_meetable, Front.C103_types, Front.C104_blanks, Front.C104_failure, Front.C104_lines, Front.C104_readable, Front.C104_unwritable, Front.C105_false, Front.C105_positions_partial, Front.C105_repeated, Front.C106_false, Front.C106_no_context, Front.C106_sizes, Front.C106_weights_partial, Front.C96_determined, Front.C96_queries, Front.C97_default, Front.C97_default_false, Front.C97_false, Front.C97_lost, Front.C97_table_partial, Front.C98_no_key, Front.C98_word_partial, Front.C99_select, Items.C200_false, Items.C200_partial, Items.C84_columns, Items.C84_refused, Items.C85_false_left_right, Items.C85_false_one, Items.C85_false_other, Items.C85_partial, Items.C86_false, Items.C86_partial, Items.C87_false, Items.C87_partial, Items.C88_false, Items.C88_machine, Items.C88_partial, Items.C89_built, Items.C89_false_empty, Items.C89_false_slash, Items.C89_false_twice, Items.C89_partial, Items.C90_false_column, Items.C90_false_order, Items.C90_given_format, Items.C90_partial_item, Items.C90_partial_token, Items.C90_partial_type, Items.C91_false, Items.C91_partial, Items.C92_false_extension, Items.C92_false_slash, Items.C92_partial, Items.C93_false, Items.C93_partial, Items.C94_merge, Items.C95_false, Items.C95_item, Items.C95_load, Items.C95_partial, Items.C95_token_shifted, Items.Old.C201_partial, Items.Old.C201_settings, Matrix.C125_cells, Matrix.C125_dense, Matrix.C125_refused, Matrix.C125_sparse_partial, Matrix.C126_table_partial, Matrix.C127_counterexample, Matrix.C127_empty, Matrix.C127_nonzero_partial, Matrix.C127_partial, Matrix.C130_counterexample, Matrix.C130_dense_counterexample, Matrix.C130_dense_partial, Matrix.C130_refused, Matrix.C130_sparse, Matrix.C130_sparse_partial, Matrix.C131_counterexample, Matrix.C131_dense_partial, Matrix.C131_matrix_product, Matrix.C131_mixed_partial, Matrix.C131_product_counterexample, Matrix.C131_sparse_partial, Matrix.C131_stored_zero, Matrix.C132_no_rename, Matrix.C132_partial, Matrix.C132_reference, Matrix.C137_rows_cols, Matrix.C137_steps, Matrix.C138_merge, Matrix.C138_select, Matrix.C138_threshold, Matrix.C139_associative, Matrix.C139_commutative, Matrix.C139_total, Matrix.C140_monotone, Matrix.C140_steps, Matrix.C178_cols, Matrix.C178_partial, Matrix.C178_rows, Matrix.C179_false, Matrix.C179_mirror, Matrix.C179_nearest, Matrix.C179_order, Matrix.C179_partial, Matrix.C179_ties, Matrix.C21_dict_to_matrix_partial, Matrix.C21_empty, Matrix.C21_false_bool, Matrix.C21_false_mixed, Matrix.C21_matrix_round_trip_partial, Matrix.C21_round_trip_partial, Matrix.C21_unknown_item, Matrix.C222_cols, Matrix.C222_merge, Matrix.C222_rows, Matrix.C22_associative_partial, Matrix.C22_commutative_partial, Matrix.C22_false_transposed, Matrix.C22_false_transposed_error, Matrix.C22_merge_partial, Matrix.C23_dense_partial, Matrix.C23_dense_read, Matrix.C23_false_dense, Matrix.C23_false_square_rows, Matrix.C23_submatrix_partial, Matrix.C24_concatCols_partial, Matrix.C24_concatRows_partial, Matrix.C24_dense_concatCols_partial, Matrix.C24_dense_concatRows_partial, Matrix.C24_dense_reorderCols_partial, Matrix.C24_dense_reorderRows_partial, Matrix.C24_reorderCols_partial, Matrix.C24_reorderRows_partial, Matrix.C24_reorder_back_partial, Matrix.C24_reorder_cols_back_partial, Matrix.C25_above, Matrix.C25_threshold_value, Matrix.C26_drop_empty_cols_partial, Matrix.C26_drop_empty_rows_partial, Matrix.C26_false_all_empty, Matrix.C26_false_explicit, Matrix.C26_idempotent_cols_partial, Matrix.C26_idempotent_partial, Matrix.C27_empty, Matrix.C27_false_nearest, Matrix.C27_positions_partial, Matrix.C27_unique_partial, Matrix.C28_archive_name, Matrix.C28_coo_fails, Matrix.C28_csc_outcome, Matrix.C28_false_csc, Matrix.C28_false_pac_name, Matrix.C28_false_stale, Matrix.C28_missing, Matrix.C28_roundtrip_partial, Matrix.C28_stale_outcome, Matrix.C29_false_count, Matrix.C29_most_similar_partial, Matrix.C29_simrank, Matrix.C53_col_sums_partial, Matrix.C53_row_sums_partial, Matrix.C53_total, Matrix.C54_drop_cols_partial, Matrix.C54_drop_rows_partial, Matrix.C55_empty, Matrix.C55_false_empty, Matrix.C55_merge_partial, Matrix.C56_empty, Matrix.C56_merge_all_partial, Matrix.C57_false_unpacked_lost, Matrix.C57_load_frame, Matrix.C57_load_keeps, Matrix.C57_load_unpacked_keeps, Matrix.C57_save_frame_partial, Matrix.C58_equal_partial, Matrix.C58_exact, Matrix.C58_false_stored_zero, Matrix.C59_contexts, Matrix.C60_false_all, Matrix.C60_floats, Matrix.C60_refused, Matrix.C60_sample, Matrix.Csv.C158_default, Matrix.Csv.C158_false, Matrix.Csv.C158_nan, Matrix.Csv.C158_nan_array, Matrix.Csv.C158_noindex, Matrix.Csv.C158_partial, Matrix.Mem.C238_dropped, Matrix.Mem.C238_false, Matrix.Mem.C238_partial, Matrix.Mem.C238_selection, Matrix.uniform_pyFloat, Matrix.uniform_pyInt, Regex.C181_columns, Regex.C181_groups, Regex.C181_kept, Regex.C182_counts, Regex.C182_ends, Regex.C182_false_break, Regex.C182_false_shift, Regex.C182_partial, Regex.C182_shipped, Regex.C183_anchored_partial, Regex.C183_false, Regex.C183_text, Regex.C184_anchored_partial, Regex.C184_false, Regex.C184_prefix, Regex.C185_class, Regex.C185_dot, Regex.C185_escapes, Regex.C185_false, Regex.C185_partial, Regex.C185_prefix, Regex.C185_word, Regex.C186_documented, Regex.C186_false, Regex.C186_partial, Regex.C187_false, Regex.C187_partial, Regex.C188_exact, Regex.C188_false, Regex.C188_partial, Regex.C189_false, Regex.C189_partial, Regex.C193_exact, Regex.C193_false, Regex.C193_frequency, Regex.C193_partial, Regex.C194_text, Regex.C195_false, Regex.C195_partial, Regex.C197_false, Regex.C197_partial, Regex.C198_exact, Regex.C198_false, Regex.C198_frequency, Regex.C198_partial, Regex.C199_exact, Regex.C199_false, Regex.C199_partial, Regex.C199_vectors, Regex.C204_text, Regex.C205_partial, Regex.C215_text, Regex.returnsFreq_some, Regex.returns_some, Regex.tokens_nodup, Setup.C260_order, Setup.C260_partial, Setup.C49_update, Setup.C51_false, Setup.C51_false_default, Setup.C51_partial, Setup.C82_corpus, Setup.C82_order, Setup.Log.C206_lost, Setup.Log.C206_outside, Setup.Log.C206_partial, Setup.Log.C207_exception, Setup.Log.C207_false, Setup.Log.C207_file, Setup.Log.C207_levels, Setup.Log.C207_misfit, Setup.Log.C207_partial, Setup.Log.C208_changed, Setup.Log.C208_false, Setup.Log.C208_none, Setup.Log.C208_silent, Setup.Log.C208_unopened, Setup.Save.C162_files, Setup.Save.C162_main, Setup.Save.C163_missing, Setup.Save.C246_lost, Setup.Save.C246_stale, Setup.Save.C261_false, Setup.Save.C261_partial, Setup.Save.C261_saved, Setup.Save.C261_within, Setup.Save.C83_partial, Setup.Save.subname_inner, Vocab.C133_round_trip, Vocab.C133_sources, Vocab.C134_large, Vocab.C135_coverage, Vocab.C135_fewer, Vocab.C136_all, Vocab.C136_steps, Vocab.C136_totals, Vocab.C16_vocab_refines_map, Vocab.C17_item_list, Vocab.C17_ranking, Vocab.C18_slice_any, Vocab.C18_slice_top, Vocab.C20_false, Vocab.C20_plain_round_trip_partial, Vocab.C20_plain_stable, Vocab.Files.C175_ascii, Vocab.Files.C175_default, Vocab.Files.C175_false, Vocab.Files.C175_false_silent, Vocab.Files.C175_load, Vocab.Files.C175_partial, Vocab.Files.C176_false, Vocab.Files.C176_never_wrong, Vocab.Files.C176_partial, Vocab.Files.C177_false, Vocab.Files.C177_partial, Vocab.Files.utf8_faithful, Vocab.Files.utf8_strict, Vocab.Json.C167_json, Vocab.Json.C168_false_plain, Vocab.Json.C168_partial, Vocab.Json.C172_empty, Vocab.Json.C172_only, Vocab.Json.C172_reader, Vocab.Json.C172_refused, Vocab.Mem.C239_partial, Vocab.Plain.C20_boundaries, Vocab.Plain.C20_count, Window.C09_window, Window.C10_counts_partial, Window.C10_exact, Window.C10_false, Window.C10_never_overcounts, Window.C11_false, Window.C11_tokens_partial, Window.C12_counts_split, Window.C12_tokens_split, Window.C14_transpose_partial, Window.C15_col_filter_commutes, Window.C15_filter_commutes.

## Functions modelled and not modelled

A function is listed as modelled if a comment of a model definition cites its lines; the comments say what is simplified. `deprel/` (an older copy of the dependency code, not imported by the package), `logging.py` and the tests are not modelled at all.

* `conf.py`. Modelled: ConfigLoader.__init__, ConfigLoader.settings, ConfigLoader.read_params, ConfigLoader.load_config, ConfigLoader.update_config. Not modelled: none.
* `utils.py`. Modelled: make_dir, clean_dir, sizeof_fmt, read_fnames, read_fnames_of_corpus, count_values, sort_dict, save_dict_json, save_dict_plain, load_dict_json, load_dict_plain, save_concordance, read_word_queries, get_word_str, SaveLoad.load, SaveLoad._load_specials, SaveLoad._adapt_by_suffix, SaveLoad._smart_save, SaveLoad._save_specials, SaveLoad.save. Not modelled: timeit, is_string, sizeof, pickle, unpickle.
* `core/handler.py`. Modelled: Paralleler.__init__, Paralleler.subtmpdir, Paralleler.process, Paralleler._job_producer, BaseHandler.__init__, BaseHandler.prepare_fnames, BaseHandler.update_one_file. Not modelled: Paralleler.pid, Paralleler._worker_loop, Paralleler._do_process_job, Paralleler._process_results, BaseHandler.process, BaseHandler._do_process_job, BaseHandler._worker_loop, BaseHandler._process_results, BaseHandler.process_right_window, BaseHandler.update_one_match.
* `core/terms.py`. Modelled: ItemNode.__init__, ItemNode.to_type, ItemNode.to_colloc, ItemNode.__str__, TypeNode.__init__, TypeNode.type, TypeNode.collocs, TypeNode.append_token, TypeNode.get_collocs, TypeNode.save, TypeNode.load, TypeNode.sample, TypeNode.merge, TokenNode.__init__, TokenNode.lspan, TokenNode.rspan, TokenNode.token, TokenNode.json_data, TokenNode.gen_token_from_json_data, Window.__init__, Window.init_span, Window.update, Getter.__init__, Getter.init_machine, Getter.token_line_machine, Getter.word, Getter.pos, Getter.lemma, Getter.get_func, Getter.get_type, Getter.get_token, Getter.get_item, CorpusFormatter.__init__, CorpusFormatter.match_line, CorpusFormatter.separator_line_machine, CorpusFormatter.left_bound_machine, CorpusFormatter.right_bound_machine, CorpusFormatter.single_bound_machine, CorpusFormatter.get, CorpusFormatter.get_type, CorpusFormatter.get_token, CorpusFormatter.get_colloc, Sentence.__init__, Sentence.parse, Sentence.get_content, PathTemplate.__init__, PathTemplate.len, PathTemplate.match_node, PathTemplate.match_edge, PathTemplate.__str__, Path.__init__, Path.len, Path.size. Not modelled: ItemNode.__repr__, TypeNode.freq, TypeNode.__str__, TypeNode.__repr__, TokenNode.__str__, TokenNode.__repr__, Window.__repr__, Window.__str__, Getter.word_line_machine, Getter.separator_line_machine, Getter.left_bound_machine, Getter.right_bound_machine, Getter.single_bound_machine, Path.add_path, Path.save, Path.load.
* `core/vocab.py`. Modelled: Vocab.__init__, Vocab.dataframe, Vocab._construct, Vocab._gen_freq_dict_by_dataframe, Vocab.__contains__, Vocab.__getitem__, Vocab.__setitem__, Vocab.__getattr__, Vocab.__lt__, Vocab.__le__, Vocab.__eq__, Vocab.__gt__, Vocab.__ge__, Vocab.__len__, Vocab._select_by_items, Vocab._select_by_freqs, Vocab.keys, Vocab.values, Vocab.items, Vocab.get_dict, Vocab.isEmpty, Vocab.setFILTER, Vocab.increment, Vocab.get_item_list, Vocab.select_items, Vocab.make_type_file, Vocab.subvocab, Vocab.regex_item, Vocab.match, Vocab.sum, Vocab.sum_freq, Vocab.equal, Vocab.copy, Vocab.deepcopy, Vocab.save, Vocab.load, Vocab.__repr__, Vocab.__str__, Vocab.select_subsets. Not modelled: Vocab.describe.
* `core/matrix.py`. Modelled: check_symmetric, empty_row_idx, reorder_matrix, SparseMatrix.dataframe, SparseMatrix.__getitem__, SparseMatrix._get_value, SparseMatrix.multiply, SparseMatrix.__lt__, SparseMatrix.__le__, SparseMatrix.__gt__, SparseMatrix.__ge__, SparseMatrix._operator_positive, SparseMatrix.submatrix, SparseMatrix.reorder, SparseMatrix.controid, SparseMatrix.empty_rows, SparseMatrix.drop_zero_rows, SparseMatrix.drop_zero_cols, SparseMatrix.most_similar, SparseMatrix.merge, SparseMatrix._merge_matrix_dict, SparseMatrix.concatenate, SparseMatrix.transpose, SparseMatrix.equal, SparseMatrix.get_colloc_contexts, NormalMatrix.dataframe, NormalMatrix.__getitem__, NormalMatrix._get_value, NormalMatrix.multiply, NormalMatrix.__lt__, NormalMatrix.__le__, NormalMatrix.__gt__, NormalMatrix.__ge__, NormalMatrix.reorder, NormalMatrix.submatrix, NormalMatrix.merge, NormalMatrix.concatenate, NormalMatrix.transpose, NormalMatrix.equal, NormalMatrix.get_colloc_contexts, NormalMatrix.most_similar, SquareMatrix.dataframe, SquareMatrix.multiply, SquareMatrix.__lt__, SquareMatrix.__le__, SquareMatrix.__gt__, SquareMatrix.__ge__, SquareMatrix.submatrix, SquareMatrix.merge, SquareMatrix.concatenate, SquareMatrix.transpose, SquareMatrix.equal, SquareMatrix.most_similar, TypeTokenMatrix.__init__, TypeTokenMatrix.item2rowid, TypeTokenMatrix.item2colid, TypeTokenMatrix.meta_data, TypeTokenMatrix.dataframe, TypeTokenMatrix.__getitem__, TypeTokenMatrix._get_value, TypeTokenMatrix.multiply, TypeTokenMatrix.__lt__, TypeTokenMatrix.__le__, TypeTokenMatrix.__gt__, TypeTokenMatrix.__ge__, TypeTokenMatrix.sum, TypeTokenMatrix.submatrix, TypeTokenMatrix.most_similar, TypeTokenMatrix.sample, TypeTokenMatrix.reorder, TypeTokenMatrix._reorder_verbose, TypeTokenMatrix.empty_rows, TypeTokenMatrix.drop_empty, TypeTokenMatrix.count_nonzero, TypeTokenMatrix.drop, TypeTokenMatrix.drop_empty_rows, TypeTokenMatrix.drop_zero_rows, TypeTokenMatrix.merge, TypeTokenMatrix.concatenate, TypeTokenMatrix.transpose, TypeTokenMatrix.equal, TypeTokenMatrix.get_colloc_contexts, TypeTokenMatrix.todense, TypeTokenMatrix.copy, TypeTokenMatrix.deepcopy, TypeTokenMatrix.to_csv, TypeTokenMatrix.read_csv, TypeTokenMatrix.from_dataframe, TypeTokenMatrix.save, TypeTokenMatrix.load, TypeTokenMatrix.describe, TypeTokenMatrix.print_matrix. Not modelled: merges_matrices, BaseMatrix.get_matrix, BaseMatrix.transpose, BaseMatrix.svd, SparseMatrix.__init__, NormalMatrix.__init__, NormalMatrix.empty_rows, SquareMatrix.__init__, SquareMatrix.__getitem__, SquareMatrix._get_value, SquareMatrix.reorder, SquareMatrix.get_colloc_contexts, TypeTokenMatrix.shape, TypeTokenMatrix.rowid2item, TypeTokenMatrix.colid2item, TypeTokenMatrix.get_matrix, TypeTokenMatrix.__str__, TypeTokenMatrix.__repr__, TypeTokenMatrix.spmatrix_to_dict.
* `core/graph.py`. Modelled: Graph.__init__, Graph.add_edge, Graph.build_graph_raw, Graph.build_graph, Graph.match, DiGraph.add_node, DiGraph.add_edge, SentenceGraph.__init__, SentenceGraph.generate_graph, SentenceGraph.build_graph, SentenceGraph.match_pattern, SentenceGraph.match_target_feature, match_sub_template, PatternGraph.__init__, PatternGraph.islinear, PatternGraph.match_node, PatternGraph.match_edge, PatternGraph.read_csv, PatternGraph.read_graphml, MacroGraph.__init__, MacroGraph.target, MacroGraph.feature, MacroGraph.feature_simple, MacroGraph.feature_full, MacroGraph.preorder_recur, MacroGraph.get_node_repr, MacroGraph.get_edge_repr, MacroGraph.feature_old, MacroGraph.set_feature, MacroGraph.set_target, MacroGraph.read_csv, MacroGraph.read_xml, MacroGraph.parse_macro_xml. Not modelled: Graph.nodes, Graph.edges, Graph.add_node, Graph.__repr__, DiGraph.__init__, DiGraph.nodes, DiGraph.edges, DiGraph.istree, DiGraph.out_degree, DiGraph.in_degree, DiGraph.successors, DiGraph.predecessors, DiGraph.__repr__, SentenceGraph.show, SentenceGraph.__repr__, PatternGraph.show, PatternGraph.__repr__, MacroGraph.size, MacroGraph.add_match, MacroGraph.show, MacroGraph.show_match, MacroGraph.__repr__.
* `specutils/mxutils.py`. Modelled: transform_dict_to_spmatrix, transform_spmatrix_to_dict, transform_nodes_to_matrix, merge_two_matrices, transform_indices, merge_matrices, merge_matrix_dict, get_largest_k, get_smallest_k, centroid_of_cluster, sum_of_cluster. Not modelled: none.
* `specutils/mxcalc.py`. Modelled: compute_ppmi, compute_association, calc_association, pairwise_association, calc_pmi, calc_ppmi, calc_lik, calc_chisq, calc_zscore, calc_mi, calc_dice, calc_deltap, calc_deltap_coll, calc_log_ratio, entropy, adjust_val, compute_distance, calc_distance, compute_cosine, compute_simrank, compute_token_weights, compute_token_vectors, dot_addition, dot_multiplication. Not modelled: compute_cos.
* `specutils/deputils.py`. Modelled: find_arrow, parse_sub, parse_pattern, get_root, get_depth, get_depth_of_node, tree_match, subtree_match, add_match, match_level, match_successors, match_graph, match_path. Not modelled: draw_tree, draw_match, draw_labels.
* `models/typetoken.py`. Modelled: ItemFreqHandler.build_item_freq, ItemFreqHandler._worker_loop, ItemFreqHandler._do_process_job, ItemFreqHandler.update_one_file, ItemFreqHandler._process_results, ColFreqHandler.__init__, ColFreqHandler.build_col_freq, ColFreqHandler._worker_loop_with_colvocab, ColFreqHandler._worker_loop_without_colvocab, ColFreqHandler._worker_loop, ColFreqHandler._do_process_job, ColFreqHandler.update_one_file, ColFreqHandler.update_one_match, ColFreqHandler.process_right_window, ColFreqHandler._process_results, ColFreqHandler.dict2matrix, TokenHandler.__init__, TokenHandler.retrieve_tokens, TokenHandler._worker_loop, TokenHandler._do_process_job, TokenHandler.update_one_file, TokenHandler.update_one_match, TokenHandler.process_right_window, TokenHandler._process_results, TypeVectorizer.__init__, TypeVectorizer.fit, TypeVectorizer.vectorize, TokenVectorizer.__init__, TokenVectorizer.retrieve_tokens, TokenVectorizer.generate_vectors, TypeToken.__init__, TypeToken.get_vocab, TypeToken.build_frequency_list, TypeToken.build_vocab, TypeToken.build_col_freq, TypeToken.compute_association, TypeToken.compute_similarity, TypeToken.compute_distance, TypeToken.compute_simrank, TypeToken.select_types, TypeToken.retrieve_tokens, TypeToken.build_token_weights, TypeToken.build_token_vectors, TypeToken.read_queries, TypeToken.fetch_tokens, TypeToken.sample_tokens, TypeToken.make_token_colloc, read_token_colloc, build_tc_weight_matrix. Not modelled: ItemFreqHandler.__init__, ItemFreqHandler.process, ColFreqHandler.nocolvocab, ColFreqHandler.process, TokenHandler.process, TypeVectorizer.get_settings, TypeVectorizer.build_vocab, TokenVectorizer.get_settings, TypeToken.get_settings.
* `models/deprel.py`. Modelled: DepRelHandler.__init__, DepRelHandler.read_templates, DepRelHandler.build_dependency, DepRelHandler.build_matrix_by_matches, DepRelHandler._worker_loop, DepRelHandler._do_process_job, DepRelHandler.update_dep_rel, DepRelHandler.update_dep_rel_type, DepRelHandler.update_dep_rel_token, DepRelHandler._process_results, read_sentence. Not modelled: DepRelHandler.process.
* `models/cbc.py`. Modelled: CBC.__init__, CBC.cluster, major_steps, cbc_step1_multicore, cbc_step1_call, cbc_step1_single, cbc_step2, get_merged_committee, clean_clusters, remove_duplicate, remove_singleton, remove_superset, inverted_index, calc_committee_vectors, cbc_step3_old, cbc_step3, cluster_similar_elements, sub2glb, hierarchical_cluster, flat_cluster, score_cluster, cluster_avgsim, average_similarity, square_to_condensed, calc_meas_vec, save_committees_json, save_residues_json. Not modelled: reverse.
