#!/usr/bin/env python3
"""Writes MANIFEST.json. One entry per property: status, theorems, note."""
import json, os
C = []
def c(prop, status, theorems, note=""):
    C.append({"property": prop, "status": status, "theorems": ["Leaves." + t for t in theorems], "note": note})

c("C01", "proved", ["C01_numerical_split"])
c("C02", "partial", ["C02_categorical_split", "C02_in_range", "C02_nan_right", "C02_nan_platform_dependent"],
  "Values whose truncation does not fit int32, and NaN without missing type NaN, follow the platform's float-to-int "
  "conversion, which the Go specification leaves open; C02_nan_platform_dependent proves the claim's NaN case cannot hold in general.")
c("C03", "proved", ["C03_lg_text_tree_value", "C03_lg_text_single_leaf"])
c("C04", "proved", ["C04_lg_text_leaf_index"])
c("C05", "proved", ["C05_json_tree_value", "JsonExample.C05_num_cat_zero_panics", "JsonExample.C05_wrong_num_leaves_fails"],
  "The two hypotheses on num_leaves and num_cat are necessary (proved by counterexamples).")
c("C06", "partial", ["C06_xg_tree_value_le", "C06_xg_tree_value_partial", "C06_xg_single_leaf", "C06_float32_exact", "XgExample.C06_tie_fails", "CyclicExample.C06_shared_fails"],
  "The code compares with <=: proved equal to XGBoost's walk for rows without a value equal to a split condition, false at equality (proved). A file in which two splits share a child loads and may predict another leaf (proved); the theorems are about trees.")
c("C07", "proved", ["C07_sk_tree_value", "C07_sk_tree_value_nan", "C07_sk_single_leaf"])
c("C08", "proved", ["C08_lg_text_terminates", "C08_json_terminates", "C08_xg_terminates", "C08_sk_terminates"])
c("C09", "partial", ["C09_lg_text_no_panic", "C09_xg_no_panic", "C09_sk_no_panic", "C09_json_no_panic", "C09_text_file", "C09_written_model", "C09_xgboost_file", "C09_linear_file", "C09_sklearn_file", "C09_json_file", "EvaluateExample.C09_empty_row_fails"],
  "Proved for whole files of all formats; false for the empty row and a scikit-learn classifier without splits (proved). For scikit-learn the rows must be as long as the largest split feature, which NFeatures() does not report (C64).")
c("C10", "proved", ["C10_raw_prediction", "C10_tree_sum"])
c("C11", "proved", ["C11_all_estimators", "C11_first_estimators", "C11_linear_ignores"])
c("C12", "proved", ["C12_predict_iff", "C12_window", "C12_error_changes_nothing", "C12_rejections"])
c("C13", "proved", ["C13_predict_single", "C13_any_buffer", "C13_quiet_zero"])
c("C14", "proved", ["C14_dense_is_rowwise", "C14_rowwise_is_dense", "C14_error_changes_nothing"])
c("C15", "proved", ["C15_csr_is_rowwise", "C15_rowwise_is_csr", "C15_row_unique"])
c("C16", "proved", ["C16_dense_parallel", "C16_dense_deterministic"])
c("C17", "proved", ["C17_csr_parallel", "C17_csr_deterministic"])
c("C18", "proved", ["C18_dense_no_race", "C18_csr_no_race"])
c("C19", "proved", ["C19_dense_terminates", "C19_csr_terminates"])
c("C20", "partial", ["C20_csr_to_dense", "C20_dense_to_csr_partial", "BatchExample.C20_single_feature_fails"],
  "False for models that split on features they do not announce, such as all single-feature models (proved); proved for all others.")
c("C21", "partial", ["C21_buffer_independent", "PredictExample.C21_linear_leaf_view_stale"],
  "False for leaf views of linear models (proved: Predict succeeds and keeps the old buffer); proved for all others.")
c("C22", "proved", ["C22_leaf_layout", "C22_value_of_leaf", "C22_leaf_bound", "C22_lg_text_leaf_bound"])
c("C23", "partial", ["C23_nleaves_layout", "C23_lg_text_leaf_count", "C23_json_leaf_count", "C61_xg_leaf_indices", "C61_sk_leaf_indices", "C23_sk_single_leaf_counts_two"],
  "The count is right for LightGBM text and JSON, XGBoost and scikit-learn trees with a split; false for scikit-learn trees without one, which count two leaves (proved).")
c("C24", "proved", ["C24_outermost_view", "C24_views_fit"])
c("C25", "proved", ["C25_range", "C25_order", "C25_predict"],
  "Assuming of math.Exp only that it is monotone, never NaN on non-NaN input and non-negative.")
c("C26", "partial", ["C26_softmax_partial", "C26_predict_partial", "C26_overflow", "C26_underflow", "C26_all_zero"],
  "Proved when every exponential lies within 2^-1000..2^1000 (up to 2^20 classes), for the transformation and for Predict: range, order, and the exact sum of N outputs is within (N+4)*2^-52 of 1; false otherwise (proved).")
c("C27", "partial", ["C27_names_partial", "C27_exponential_misnamed"],
  "Holds for every transformation but the exponential one, whose reported name is another's (proved).")
c("C28", "partial", ["C28_transform_applied_partial", "PredictExample.C28_logistic_two_groups_stores_nothing", "LgLoadExample.C28_loaded_model_stores_nothing"],
  "False when the transformation does not accept the number of raw scores (proved): the error is dropped. Proved when it does.")
c("C29", "proved", ["C29_leaf_needs_all"])
c("C30", "proved", ["C30_average_over_used"])
c("C31", "proved", ["C31_number_of_set_bits", "C31_number_of_set_bits_mod"])
c("C32", "proved", ["C32_first_non_zero_bit", "C32_first_non_zero_bit_error"])
c("C33", "proved", ["C33_construct_bitset", "C33_negative_ignored"])
c("C34", "proved", ["C34_threshold_roundtrip", "C34_leaf_index_exact"])
c("C35", "proved", ["C35_block_read_back", "C35_block_at_end", "C35_one_leading_blank"])
c("C36", "proved", ["C36_two_equals_rejected", "C36_io_error_rejected", "C36_no_newline_rejected", "C36_texts_covered", "C36_terminates", "C36_consumes"])
c("C37", "proved", ["C37_uint32_slice", "C37_int32_slice", "C37_int", "C37_float64_slice", "C37_missing_field"])
c("C38", "proved", ["C38_lg_text_consistent", "C38_lg_class_count", "C38_lg_json_consistent", "C38_lg_json_fits"])
c("C39", "proved", ["C39_written_model", "C39_text_file", "C39_rest_irrelevant"])
c("C40", "proved", ["C40_raw_by_default", "C40_objective_decides", "C40_loads_with_transformation", "C40_objective_unique", "C40_unknown_rejected", "C40_transform_or_error", "C40_fits"])
c("C41", "proved", ["C41_header", "C41_tree", "C41_gbtree", "C41_linear", "C41_string_and_slice", "C41_gbtree_injective", "C41_header_iff", "C41_tree_iff", "C41_gbtree_iff", "C41_linear_iff"])
c("C42", "proved", ["C42_header", "C42_tree", "C42_gbtree", "C42_linear", "C42_truncated_file"])
c("C43", "partial", ["C43_loaded_partial", "XgFileExample.C43_zero_groups_loads", "XgFileExample.C43_tree_ignored"],
  "False: a file announcing 0 groups loads, and so does one whose tree count is not a multiple of its groups (both proved). Proved when the file announces at least one group and a multiple of it in trees.")
c("C44", "proved", ["C44_weighted_sum", "C44_unit_weights", "C44_unit_dart_file", "DartExample.C44_unit_dart_example"])
c("C45", "proved", ["C45_linear_sum"])
c("C46", "partial", ["C46_csr_from_array_partial", "C46_dense_from_array_partial", "MatExample.C46_negative_dimensions"],
  "Proved for non-negative dimensions whose product fits an int; false for two negative ones (proved).")
c("C47", "partial", ["C47_csr_valid", "C47_dense_libsvm_partial", "C47_dense_csv_partial", "C47_dense_csv_skip_partial", "MatExample.C47_empty_row_breaks_shape"],
  "Proved for sparse matrices, and for full ones unless the first column is skipped and rows have nothing else; false then (proved).")
c("C48", "partial", ["C48_csr_partial", "C48_csr_bare_partial", "C48_dense", "C48_dense_rejects_gap", "C48_empty_row_rejected", "MatExample.C48_double_space_drops"],
  "Proved for matrices whose rows all have entries; rows without entries are rejected (proved).")
c("C49", "partial", ["C49_csv_roundtrip_partial", "MatExample.C49_empty_shape_lost"],
  "Proved for all matrices with at least one row and column; the shape of others is lost (proved).")
c("C50", "partial", ["C50_csv_partial", "C50_csv_written_partial", "MatExample.C50_leading_empty_lost", "MatExample.C50_blank_row_ends"],
  "Proved when no line is empty or begins or ends with white space; false for empty fields at the ends of a line with a white-space delimiter and for rows with a single, empty field (proved).")
c("C51", "proved", ["C51_decode", "C51_every_value", "C51_value_unique"])
c("C52", "proved", ["C52_unicode", "C52_line", "C52_zero_escape_kept"],
  "Proved for the two escapes the statement names; the further escapes of newer Python versions are left as they are (proved for one).")
c("C53", "partial", ["C53_fetch_partial", "C53_shared_partial", "PickleExample.C53_list_stale", "PickleExample.C53_state_lost"],
  "False for lists extended and for objects given a state after being memoised (both proved); proved for other objects, including dicts.")
c("C54", "proved", ["C54_node_record", "C54_records_covered", "C54_chunks", "C54_bad_length"])
c("C55", "proved", ["C55_prior_once", "C55_first_only"])
c("C56", "partial", ["C56_consistent_partial", "SkModelExample.C56_no_groups", "SkModelExample.C56_negative_estimators"],
  "Proved for every input that loads with at least one tree; inputs with no classes or with a negative number of estimators can load as empty models (proved).")
c("C57", "partial", ["RobustExample.C57_text_short_arrays", "RobustExample.C57_text_many_leaves", "RobustExample.C57_json_negative_category", "RobustExample.C57_xg_long_string", "RobustExample.C57_pickle_opcode", "CrashExample.C57_sk_child_out_of_range", "C57_lg_text_partial", "C57_json_partial", "C57_xg_partial", "C57_xg_linear_partial", "C57_pickle_partial", "C57_sk_model_partial", "C57_sklearn_partial", "SkCrashExample.C57_sk_negative_classes", "SkCrashExample.C57_sk_no_dimension", "SkCrashExample.C57_sk_short_number"],
  "False: witnesses of input that crashes each loader are proved. Proved for every loader: what is wrong with the input whenever it crashes.")
c("C58", "partial", ["BatchExample.C20_single_feature_fails"], "False: a single-feature model announces 0 features and PredictCSR panics (proved).")
c("C59", "partial", ["C59_length_check_partial", "C59_product_wraps"],
  "Proved while rows times outputs stays below 2^63; false beyond, where the product wraps (proved).")
c("C60", "proved", ["C60_batches_tile", "C60_each_once", "C60_trace_exists", "C60_limit_sharp"])
c("C61", "proved", ["C61_xg_leaf_indices", "C61_json_leaf_indices", "C61_sk_leaf_indices", "C04_lg_text_leaf_index"])
c("C62", "partial", ["C62_xgboost_file_le", "C62_xgboost_file_partial", "C62_linear_file"],
  "Proved for gblinear; for trees proved with the code's comparison (<=), and with XGBoost's (<) for rows without a value equal to a split condition (C06 shows equality fails).")
c("C63", "proved", ["C63_sklearn_file"])
c("C64", "partial", ["C64_features_partial", "SkModelExample.C64_features_wrong"],
  "False when max_features differs from the number of features (proved); proved when they are equal and at least 2.")
c("C65", "proved", ["C65_lg_text", "C65_lg_json", "C65_xg", "C65_xg_linear", "C65_sklearn"])
c("C66", "partial", ["RobustExample.C66_cyclic_tree", "CyclicExample.C66_xgboost_shared", "CyclicExample.C66_sklearn_shared", "CyclicExample.C66_json_leaves", "C66_endless", "C09_text_file", "C09_xgboost_file", "C09_linear_file", "C09_sklearn_file", "C09_json_file"],
  "False: a LightGBM text file whose root is its own left child loads and never returns a prediction (proved); so does an XGBoost or scikit-learn file in which both children of a split are the same node, and a JSON tree that understates its number of leaves (proved). A prediction is endless exactly if the row leads from split to split forever (proved). Proved for well-formed files.")
c("C67", "proved", ["C67_json_file", "C67_document"])
c("C68", "partial", ["C68_text_json_partial", "JsonModelExample.C68_forest_fails", "C68_json_version", "JsonDocExample.C68_version_fails"],
  "Proved for boosted models with a dump of version v2; false for averaging forests, whose JSON dumps load as sums (proved), and for models of version v3, whose text files load and whose dumps are rejected (proved).")
c("C69", "partial", ["C69_rearranged_partial", "JsonDocExample.C69_unreadable_member", "JsonDocExample.C69_letter_case", "JsonDocExample.C69_integer_text", "JsonDocExample.C69_split_as_leaf"],
  "Proved for documents within the parser's nesting limit whose unknown members have numbers that fit a float64; false otherwise (proved: one unreadable number in an unknown member makes the loader reject the file). Also proved: leaf_value is the one name whose letter case matters, and integers written with a fraction are rejected; and a split with an empty missing_type and a leaf_value is loaded as a leaf.")
c("C70", "proved", ["C70_accepted", "C70_other_class"],
  "For pickles as described by the specification of protocol 0 (any memoisation).")
c("C71", "partial", ["C71_transform", "C71_count", "C71_raw_unchecked"],
  "Proved for all transformations; the raw and leaf-index transformations accept any number of values, whatever number they announce (proved).")
c("C72", "partial", ["C72_close", "C72_not_far", "C72_slices_close", "C72_slices_not_far_partial", "C72_lengths", "C72_count", "C72_count_zero", "C72_nan_unnoticed", "C72_sigmoid"],
  "Proved for numbers; false for NaN, which the slice comparisons take for equal to every number (proved).")
c("C73", "proved", ["C73_untested", "C73_untested_single", "C73_surplus", "C73_wider_matrix"],
  "For every model value; the last two for models that fit together as the loaders build them.")
c("C74", "proved", ["C74_next_estimator", "C74_next_estimator_xg"],
  "The averaging forest is excluded: its scores are divided by the number of estimators.")
c("C75", "proved", ["C75_csr_rows", "C75_same_values", "C75_order", "C75_default", "C75_beyond"],
  "")
c("C76", "partial", ["C76_libsvm_partial", "C76_csv_partial", "C76_libsvm_dense_partial"],
  "For well-formed files with non-empty rows; what the readers do with other files is the subject of C47 to C50 (some of them are read without an error as something else).")
c("C77", "proved", ["C77_independent", "C77_all_return", "CallsExample.C77_shared_slice"],
  "With slices that overlap it fails (proved): two equal calls sharing a slice may leave twice the prediction. That the methods write nothing but predictions is read off the code when modelling it.")
c("C78", "partial", ["C78_partial", "C78_row_unchanged_partial", "C78_nothing_else", "AliasExample.C78_overlap"],
  "Missing: overlapping slices and a model without transformation, where the claim is false: predictInner clears predictions before it reads the row (proved with a witness: 202, 2020 become 101, 2010). That nothing outside predictions is written is proved without restriction.")
c("C79", "proved", ["C79_text_file", "C79_json_file", "C79_xgboost_file", "C79_sklearn_file", "C79_linear_file", "MonotoneExample.C79_missing_breaks"],
  "Where products are formed (averaging forests, dart weights, scikit-learn's learning rate, linear models) the factors must not be negative and x*y + z must be fused everywhere or nowhere on the platform. Logistic predictions need exp to be monotone, not negative, and NaN for NaN. A witness shows that the restriction to values that are not missing is needed.")
c("C80", "proved", ["C80_text", "C80_json", "C80_xgboost", "C80_linear", "C80_exclusive", "C80_sklearn"],
  "A JSON dump of a random forest is called 'lightgbm.gbdt', as JSON dumps do not record averaging (see C68).")
c("C81", "partial", ["C81_text_file", "C81_xgboost_file", "C81_sklearn_file", "C81_json_file", "LeafFilesExample.C81_text_json_differ"],
  "The last sentence is false: the JSON loader ignores the dump's leaf_index and numbers the leaves in order of conversion, so the same row of the same model can get other leaf numbers than from the text file (C81_text_json_differ). A scikit-learn tree without splits has one leaf, NLeaves() says two (C23).")
c("C82", "proved", ["C82_text_file", "C82_xgboost_file", "C82_linear_file", "C82_sklearn_file", "C82_json_file", "AccuracyExample.C82_average_inexact"],
  "Concerns raw scores that are finite; transformed outputs are the subject of C25 and C26. The bound cannot be an equality: a forest of six leaves of value 1 predicts less than 1 (C82_average_inexact).")
c("C83", "proved", ["C83_csv_nearest", "C83_csv_overflow", "C83_csv_roundtrip", "C83_lightgbm_exact", "DecimalExample.C83_needs_delimiter", "DecimalExample.C83_sixteen_digits_lose"],
  "Removes the assumption on number formats from C49 and C39: strconv.ParseFloat and the verb %.19g are written out in Model/Strconv.lean as the Go library documents them (decimal and hexadecimal numerals, underscores, names of infinities and NaN) and the theorems assume that the platform has them. DecimalExample shows that a delimiter such as a point breaks the round trip and that 16 digits are not enough.")
c("C84", "proved", ["C84_layout", "C84_unambiguous", "C84_file", "C84_accepted", "C84_rejected", "C84_truncated", "C84_numbers"],
  "Model/JsonText.lean writes out how encoding/json reads text; Spec/JsonText.lean is the grammar of RFC 8259 as a relation between values and texts. Note that garbage after the closing brace is accepted (C84_layout with any rest).")
c("C85", "partial", ["C85_matrix_partial", "C85_too_short", "BatchExample.C85_reads_behind_the_end", "BatchExample.C85_short_panics"],
  "The first half holds when vals is long enough (C85_matrix_partial). The second half is false: the length of vals is never checked. A short slice with spare capacity gives predictions from memory behind its end without an error (C85_reads_behind_the_end), otherwise the call panics, after some predictions have been stored (C85_too_short, C85_short_panics).")
c("C86", "proved", ["C86_text_file", "C86_json_file", "C86_xgboost_file", "C86_sklearn_file", "C86_text_number", "C86_json_number", "C86_xgboost_number"],
  "Averaging forests, weighted trees and scikit-learn models need a platform that fuses x*y+z everywhere or nowhere, and nonnegative weights or learning rates. Scores that are NaN are left out of the comparison; the _number theorems say when there are none.")
c("C87", "partial", ["C87_write_str", "C87_inconsistent", "C87_to_csv_partial", "C87_file_roundtrip", "WriteExample.C87_to_csv_silent"],
  "WriteStr has the property. ToCsvFile does not: the error of the deferred Flush of its buffer is dropped, so nil is returned on a full disk; C87_to_csv_silent is a witness with an empty file. C87_to_csv_partial says what remains: on nil at most the last 4096 bytes are missing, and nothing is missing if no write fails.")
c("C88", "proved", ["C88_text_objective", "C88_forest", "C88_written_model"],
  "The objective forms are those of the specification Objective. The classes of binary and poisson models must be one, as LightGBM writes them.")
c("C89", "proved", ["C89_text_binary", "C89_text_multiclass", "C89_text_exponential", "C89_xgboost_file"],
  "ExpAccurate is the assumption about math.Exp; ProbabilityExample.accurate_exp shows that it can be met with eps = 2^-52. Multiclass and exponential models need scores up to 689, beyond which exp overflows.")
c("C90", "partial", ["C90_text_whole", "C90_text", "C90_matrix_whole", "C90_matrix", "C90_xgboost_whole", "C90_xgboost", "C90_sklearn_whole", "C90_sklearn_partial", "C90_sklearn_empty_read", "StreamExample.C90_sklearn_differs", "C90_no_file", "C90_model_files", "C90_matrix_files"],
  "Proved for LightGBM text, XGBoost and matrices, and for all functions that open files. False for scikit-learn pickles: the decoder treats an empty read (0 bytes, no error) as an error, so a pickle that loads from one reader is rejected from another (C90_sklearn_empty_read for every pickle, C90_sklearn_differs for a classifier); C90_sklearn_partial covers readers without empty reads, files among them. LightGBM JSON is decoded by encoding/json from the whole text and not part of this property.")
c("C91", "proved", ["C91_libsvm_dense", "C91_libsvm_csr", "C91_csv"],
  "With C90 the same holds for readers that deliver the text in pieces and for the functions that open a file.")
c("C92", "partial", ["C92_xgboost", "C92_linear", "C92_sklearn", "C92_json", "C92_text_partial", "C92_text_fails"],
  "Proved for XGBoost, linear, pickle and JSON files. False for LightGBM text: a file that ends inside its last tree can load with another leaf value, load and panic in prediction, or panic while loading (C92_text_fails). C92_text_partial: a cut file that is accepted has the complete header and all trees but the last, and agrees with the whole file in everything that does not use the last estimator.")
c("C93", "partial", ["C93_rows_exist", "C93_accepted", "C93_error_changes_nothing", "C93_entries_partial", "CsrShapeExample.C93_fails"],
  "The first and last sentence are proved. The second is false: PredictCSR has no check of its arrays; malformed ones are accepted as other matrices or panic (C93_fails). C93_entries_partial: what the arrays of an accepted call have in common.")
c("C94", "partial", ["C94_fields", "C94_lines", "C94_windows", "C94_order", "C94_unknown_partial", "C94_equals_fails"],
  "Proved except for additional fields whose line has more than one equals sign: these make the file unreadable, so that a model with a feature named `colour=red` is rejected (C94_equals_fails). The input must end without an I/O error.")
c("C95", "proved", ["C95_first_lines", "C95_lines", "C95_windows", "C95_final_newline", "C95_limit_csr", "C95_limit_dense", "C95_no_limit"],
  "For inputs that end with io.EOF; C90 extends it to readers that deliver the text in pieces.")
c("C96", "proved", ["C96_characters", "C96_lightgbm", "C96_matrix", "C96_encoding", "C96_pieces", "Strconv.Standard.ascii", "C96_example"],
  "AsciiFloats (no numeral has a character beyond ASCII) follows from Go's ParseFloat, Strconv.Standard.ascii. JSON text is not included.")
c("C97", "proved", ["C97_data", "C97_label", "C97_lightgbm", "C97_example"],
  "")
c("C98", "proved", ["C98_whole", "C98_binary", "C98_text", "C98_example", "C98_text_example", "C98_text_trailer"],
  "The readers are those of C90 (bytes in pieces) and C96 (text on bytes).")
c("C99", "proved", ["C99_pieces", "C99_utf8", "C99_prompt", "C99_empty_reads", "C99_example"],
  "The scanner of encoding/json is modelled as the state machine it is and proved to find the end of the first value of the grammar of C84.")
c("C100", "partial", ["C100_lightgbm", "C100_objective", "C100_json", "C100_xgboost", "C100_linear_partial", "C100_sklearn_partial", "MachinesExample.C100_average_differs", "MachinesExample.C100_category_differs", "MachinesExample.C100_linear_differs", "MachinesExample.C100_sklearn_differs"],
  "Proved for LightGBM models without average_output and rows whose values at categorical splits have an int32 (or are NaN where NaN is declared missing), for all XGBoost tree models, for linear XGBoost models on float32 rows and for scikit-learn models with learning rate one. False otherwise, each with a witness: averaging forests, linear models on float64 rows, scikit-learn models with another learning rate, and NaN as a category without declared missing values give different results on an amd64-like and an arm64-like machine.")
c("C101", "proved", ["C101_dense", "C101_csr", "C101_in_place", "C101_dense_nothing_else", "C101_csr_nothing_else", "AliasBatchExample.C101_threads", "AliasBatchExample.C101_behind", "AliasBatchExample.C101_wide", "AliasBatchExample.C101_csr_behind"],
  "Slices that do not overlap: an equivalence of the sets of outcomes, both directions. In place: an equivalence under the stated conditions. The four witnesses show predictions that go wrong when a condition fails: two threads, predictions behind the matrix, more predictions than features, sparse values. The transformed predictions read the row at once; with several threads that is one possible schedule, which is all the witness needs.")
c("C102", "partial", ["C102_xgboost", "C102_text_partial", "C102_json_partial", "C102_sklearn_partial", "C102_negative_count", "C102_csr_memory", "C102_csr_memory_example"],
  "False as a whole (C102_negative_count, C102_csr_memory with its example). Proved: for XGBoost without exception; for the other formats the only negative value is the smallest integer; PredictCSR panics, or returns an error without touching the predictions, whenever the row does not fit, with any number of threads under every schedule.")
c("C103", "proved", ["C103_text", "C103_objective", "C103_json", "C103_xgboost", "C103_sklearn", "PrefixExample.C103_example"],
  "Both files are loaded in the model and the two loaded ensembles are compared by the public predictions. The XGBoost and scikit-learn statements relate the two files by their contents (XgModel.Shortened, SkModel.shortened); for random forests the average is over the estimators asked for.")
c("C104", "proved", ["C104_dense", "C104_csr", "C104_dense_piece", "C104_csr_piece"],
  "The pieces are non-empty; an empty matrix is the subject of C18 and C19.")
c("C105", "proved", ["C105_row", "C105_single", "C105_dense", "C105_csr", "C105_between", "C105_zeros", "C105_linear", "CellsExample.C105_linear_zero_differs"],
  "C105_row and C105_single are equalities of whole executions (results, errors, crashes and stores). C105_linear_zero_differs shows that linear models do pass on the sign of a zero.")
c("C106", "partial", ["C106_xgboost_partial", "C106_sklearn_partial", "SingleExample.C106_xgboost_differs", "SingleExample.C106_sklearn_differs"],
  "False of the code. C106_xgboost_partial excludes exactly the rows with a value that does not exceed a split condition its rounding equals: split conditions are float32, so rounding moves no value across one. C106_sklearn_partial excludes the rows with a threshold between a value and its rounding. The two witnesses are whole files that split at 0.1 and the value 0.1: the libraries go right, leaves goes left. rounds32_exists and rounds32_nearest show that every value has a rounding and that round-to-nearest is one.")
c("C107", "proved", ["C107_same_leaves", "C107_dense", "C107_csr", "SameLeavesExample.C107_converse_fails"],
  "The leaf view may be asked with any number of estimators that it accepts. C107_converse_fails: equal predictions do not imply equal leaves.")
c("C108", "proved", ["C108_row", "C108_dense", "C108_csr", "C108_single", "RawViewExample.C108_single_short"],
  "Leaf views are excluded: their transformation is not one of scores. C108_single_short shows the exception for short rows.")
c("C109", "proved", ["C109_text", "C109_json", "C109_xgboost", "C109_linear", "ClassesExample.C109_example", "ClassesExample.C109_linear_example"],
  "Raw scores: the softmax of several classes is no function of one class. scikit-learn files are left out because the initial estimator of a one-class model differs from the one of several classes. For linear models the weights and the bias of a class take the place of its trees.")
c("C110", "proved", ["C110_text", "C110_json", "C110_xgboost", "C110_sklearn", "ColumnsExample.C110_example", "ColumnsExample.C110_xgboost_example", "ColumnsExample.C110_linear_differs"],
  "Tree models. C110_linear_differs shows that it is false for linear models, whose sum is rounded feature by feature.")
c("C111", "proved", ["C111_dense_untouched", "C111_dense_ok", "C111_csr", "NoRowsExample.C111_example"],
  "C111_dense_ok requires that rows times outputs does not wrap (beyond that the call may return an error); PredictCSR also allocates a row of the model's features, which has to fit into memory.")
c("C112", "proved", ["C112_text", "C112_text_bytes", "C112_xgboost", "C112_linear", "C112_sklearn", "C112_json", "RawLoadExample.C112_not_supported"],
  "C112_not_supported: the converse does not hold, files with an objective that is not supported load only without their transformation.")
c("C113", "proved", ["C113_text", "C113_json", "C113_xgboost", "C113_sklearn", "TreeOrderExample.C113_order_matters"],
  "The bound compares the two scores with each other, so no exact sum appears in the statement; the values in the bound are those of the first file's trees. The last theorem shows that the scores need not be equal.")
c("C114", "proved", ["C114_lg_text", "C114_json", "C114_xgboost", "C114_sklearn", "C114_counts", "VisitsExample.C114_reached"],
  "C114_counts ties the counted nodes to the loop of the prediction itself; C114_reached shows a row for which the bound is reached.")
c("C115", "proved", ["C115_text", "C115_json", "C115_xgboost", "ZeroTreesExample.C115_example", "ZeroTreesExample.C115_dropped", "ZeroTreesExample.C115_not_for_averages"],
  "C115_not_for_averages is the witness that average_output files are rightly excluded.")
c("C116", "proved", ["C116_logistic", "C116_ranking", "C116_softmax", "C116_ties"],
  "Unlike C26 (numbers that sum to 1) nothing is assumed on the range of the scores. C116_ties proves that equal probabilities of different scores occur.")
c("C117", "partial", ["C117_refused_partial", "C117_linear_ignored", "C117_sqrt_ignored", "UnsupportedExample.C117_linear_fails", "UnsupportedExample.C117_sqrt_fails"],
  "Proved for versions, trees per iteration and objectives. False of linear trees: the linear models are not looked at, and a file with them loads as the file without (C117_linear_ignored; a leaf 2 + 3x predicts its plain value, C117_linear_fails). False of `regression sqrt`: the raw score is answered instead of its signed square (C117_sqrt_ignored, C117_sqrt_fails).")
c("C118", "partial", ["C118_text", "C118_text_partial", "C118_loads_partial", "MemoryExample.C118_text_fails", "MemoryExample.C118_no_bound", "MemoryExample.C118_xgboost_fails"],
  "Stated exactly for well-formed LightGBM text files: they load when there is room for the number of splits that each tree announces, and panic otherwise. Proved when the arrays have an entry for each announced split: 24 bytes per character are enough. False in general: a valid text of at most 210 characters announces any number of splits below 2^32 and needs 24 bytes for each (C118_text_fails, C118_no_bound), and 144 bytes of an XGBoost file make the loader ask for any number of bytes below 2^64 before it reads on (C118_xgboost_fails).")
c("C119", "proved", ["C119_width", "C119_fits"],
  "Obtained is defined by induction: the five loaders, closed under the two views. C119_fits says exactly which of these ensembles meet the hypothesis of the theorems about prediction: all but those of files that announce no groups (C43, C56), a transformation to one number of several raw scores (C28) and leaf views of linear models (C09).")
c("C120", "proved", ["C120_accepted", "C120_refused", "C120_linear_accepted", "C120_linear_refused"],
  "Readable: the records have the counts they announce and fit in memory; other files are C57 and C118. Files in which a split is reached in two ways are accepted (C06, C66).")
c("C121", "proved", ["C121_text", "C121_binary", "C121_xgboost", "OppositeExample.C121_example", "OppositeExample.C121_scores"],
  "OneRounding is needed for averaged forests only; products of float32 numbers are exact. Example with two trees, and with the XGBoost file of C62, sign bits flipped.")
c("C122", "proved", ["C122_text", "C122_json", "C122_xgboost", "C122_linear", "C122_softmax", "RenumberExample.C122_example", "RenumberExample.C122_scores", "RenumberExample.C122_softmax_order"],
  "C122_softmax_order shows with three classes of scores 37, 0, 0 that the probabilities differ in their last bits when the first class is put last.")
c("C123", "proved", ["C123_xgboost", "C123_linear", "UnusedExample.C123_example", "UnusedExample.C123_used", "UnusedExample.C123_linear_example"],
  "Equality of the whole outcome of the loaders on two byte strings; no validity of the trees is assumed. C123_used gives the witnesses that the fields kept equal do matter.")
c("C124", "proved", ["C124_xgboost", "C124_text", "C124_sklearn", "NodeOrderExample.C124_example", "NodeOrderExample.C124_root", "NodeOrderExample.C124_text_example", "NodeOrderExample.C124_sklearn_example"],
  "XGBoost: equality of the whole outcome of the loader. LightGBM text and scikit-learn: the two loaded models agree in every prediction call; C124_text also gives the leaf indices.")
c("C125", "proved", ["C125_text", "C125_xgboost", "ScaleExample.C125_example", "ScaleExample.C125_three", "ScaleExample.C125_xgboost_example"],
  "Random forests (averaged output) are left out: the product with 1/n may be subnormal and then loses digits in one of the two models only. C125_three is the witness that the factor has to be a power of two.")
c("C126", "proved", ["C126_xgboost", "C126_sklearn", "FormatsExample.C126_xgboost_example", "FormatsExample.C126_sparse", "FormatsExample.C126_sklearn_example"],
  "C126_sparse is the witness that sparse prediction differs between an XGBoost model and its LightGBM twin. XGBoost itself compares with < and the library with <=; this property compares the two loaded models, C06 treats the difference to XGBoost.")
c("C127", "proved", ["C127_text", "C127_xgboost", "PruneExample.C127_text_example", "PruneExample.C127_xgboost_example"],
  "One direction only: the first model may crash on rows too short for a removed split (a model on a single feature announces no features), where the second one predicts. Leaf views are left out: leaf numbers change.")
c("C128", "proved", ["C128_text", "MeaningExample.C128_example"],
  "C124 is the case of a mere renumbering, which also covers leaf views and the other formats.")
c("C129", "proved", ["C129_text", "LookedUp.unique", "LookupExample.C129_example", "LookupExample.C129_row"],
  "For the other formats the leaf numbers are the loader's own (C81), so nothing can be looked up in the file.")
c("C130", "proved", ["C130_csv", "C130_hex_exact", "C130_unique", "C130_hex_overflow", "HexExample.C130_example", "HexExample.C130_not_numbers"],
  "Under the assumption that strconv.ParseFloat does what the Go library documents (Strconv.Standard), as for C83. Spellings with underscores are shown in C130_not_numbers only.")
c("C131", "proved", ["C131_text", "C131_xgboost", "UnitsExample.C131_text_example", "UnitsExample.C131_xgboost_example"],
  "Conversions are functions on float64 that keep the order on a set of values given by the user; no conversion but the identity keeps the order of all float64.")
c("C132", "proved", ["C132_libsvm", "C132_pickle", "HexExample.C132_libsvm_example", "HexExample.C132_pickle_example"],
  "Under the assumption that strconv.ParseFloat does what the Go library documents (Strconv.Standard), as for C83 and C130.")
c("C133", "proved", ["C133_xgboost", "C133_sklearn", "LeafOrderExample.C133_orders", "LeafOrderExample.C133_sklearn_example"],
  "C81 gives the same for LightGBM text files, where the numbers are those of the file.")
c("C134", "proved", ["C134_text", "C134_xgboost", "C134_sklearn", "SameSplitsExample.C134_example", "SameSplitsExample.C134_xgboost_example", "SameSplitsExample.C134_sklearn_example"],
  "")
c("C135", "proved", ["C135_underscores", "C135_exactly", "C135_refused", "C135_csv", "C135_libsvm_refused", "NotationExample.right_places", "NotationExample.wrong_places", "NotationExample.C135_example", "NotationExample.C135_refused_example", "NotationExample.C135_libsvm_example"],
  "Assumes, as C83 and C130 do, that strconv.ParseFloat is the function of Model/Strconv (Strconv.Standard). Texts that end with an exponent of 10000 or more are left out: strconv stops counting there.")
c("C136", "proved", ["C136_text", "C136_xgboost", "C136_sklearn", "WrittenExample.C136_loads", "WrittenExample.C136_example", "WrittenExample.C136_xgboost_example", "WrittenExample.C136_sklearn_example"],
  "Assumes, as C83 and C130 do, that strconv.ParseFloat is the function of Model/Strconv. Texts with exponents of 10000 or more are not described.")

out = os.path.join(os.path.dirname(__file__), "..", "MANIFEST.json")
with open(out, "w") as f:
    json.dump({"claims": C}, f, indent=1)
    f.write("\n")
