{
 "claims": [
  {
   "property": "C01",
   "status": "proved",
   "theorems": [
    "Leaves.C01_numerical_split"
   ],
   "note": ""
  },
  {
   "property": "C02",
   "status": "partial",
   "theorems": [
    "Leaves.C02_categorical_split",
    "Leaves.C02_in_range",
    "Leaves.C02_nan_right",
    "Leaves.C02_nan_platform_dependent"
   ],
   "note": "Values whose truncation does not fit int32, and NaN without missing type NaN, follow the platform's float-to-int conversion, which the Go specification leaves open; C02_nan_platform_dependent proves the claim's NaN case cannot hold in general."
  },
  {
   "property": "C03",
   "status": "proved",
   "theorems": [
    "Leaves.C03_lg_text_tree_value",
    "Leaves.C03_lg_text_single_leaf"
   ],
   "note": ""
  },
  {
   "property": "C04",
   "status": "proved",
   "theorems": [
    "Leaves.C04_lg_text_leaf_index"
   ],
   "note": ""
  },
  {
   "property": "C05",
   "status": "proved",
   "theorems": [
    "Leaves.C05_json_tree_value",
    "Leaves.JsonExample.C05_num_cat_zero_panics",
    "Leaves.JsonExample.C05_wrong_num_leaves_fails"
   ],
   "note": "The two hypotheses on num_leaves and num_cat are necessary (proved by counterexamples)."
  },
  {
   "property": "C06",
   "status": "partial",
   "theorems": [
    "Leaves.C06_xg_tree_value_le",
    "Leaves.C06_xg_tree_value_partial",
    "Leaves.C06_xg_single_leaf",
    "Leaves.C06_float32_exact",
    "Leaves.XgExample.C06_tie_fails",
    "Leaves.CyclicExample.C06_shared_fails"
   ],
   "note": "The code compares with <=: proved equal to XGBoost's walk for rows without a value equal to a split condition, false at equality (proved). A file in which two splits share a child loads and may predict another leaf (proved); the theorems are about trees."
  },
  {
   "property": "C07",
   "status": "proved",
   "theorems": [
    "Leaves.C07_sk_tree_value",
    "Leaves.C07_sk_tree_value_nan",
    "Leaves.C07_sk_single_leaf"
   ],
   "note": ""
  },
  {
   "property": "C08",
   "status": "proved",
   "theorems": [
    "Leaves.C08_lg_text_terminates",
    "Leaves.C08_json_terminates",
    "Leaves.C08_xg_terminates",
    "Leaves.C08_sk_terminates"
   ],
   "note": ""
  },
  {
   "property": "C09",
   "status": "partial",
   "theorems": [
    "Leaves.C09_lg_text_no_panic",
    "Leaves.C09_xg_no_panic",
    "Leaves.C09_sk_no_panic",
    "Leaves.C09_json_no_panic",
    "Leaves.C09_text_file",
    "Leaves.C09_written_model",
    "Leaves.C09_xgboost_file",
    "Leaves.C09_linear_file",
    "Leaves.C09_sklearn_file",
    "Leaves.C09_json_file",
    "Leaves.EvaluateExample.C09_empty_row_fails"
   ],
   "note": "Proved for whole files of all formats; false for the empty row and a scikit-learn classifier without splits (proved). For scikit-learn the rows must be as long as the largest split feature, which NFeatures() does not report (C64)."
  },
  {
   "property": "C10",
   "status": "proved",
   "theorems": [
    "Leaves.C10_raw_prediction",
    "Leaves.C10_tree_sum"
   ],
   "note": ""
  },
  {
   "property": "C11",
   "status": "proved",
   "theorems": [
    "Leaves.C11_all_estimators",
    "Leaves.C11_first_estimators",
    "Leaves.C11_linear_ignores"
   ],
   "note": ""
  },
  {
   "property": "C12",
   "status": "proved",
   "theorems": [
    "Leaves.C12_predict_iff",
    "Leaves.C12_window",
    "Leaves.C12_error_changes_nothing",
    "Leaves.C12_rejections"
   ],
   "note": ""
  },
  {
   "property": "C13",
   "status": "proved",
   "theorems": [
    "Leaves.C13_predict_single",
    "Leaves.C13_any_buffer",
    "Leaves.C13_quiet_zero"
   ],
   "note": ""
  },
  {
   "property": "C14",
   "status": "proved",
   "theorems": [
    "Leaves.C14_dense_is_rowwise",
    "Leaves.C14_rowwise_is_dense",
    "Leaves.C14_error_changes_nothing"
   ],
   "note": ""
  },
  {
   "property": "C15",
   "status": "proved",
   "theorems": [
    "Leaves.C15_csr_is_rowwise",
    "Leaves.C15_rowwise_is_csr",
    "Leaves.C15_row_unique"
   ],
   "note": ""
  },
  {
   "property": "C16",
   "status": "proved",
   "theorems": [
    "Leaves.C16_dense_parallel",
    "Leaves.C16_dense_deterministic"
   ],
   "note": ""
  },
  {
   "property": "C17",
   "status": "proved",
   "theorems": [
    "Leaves.C17_csr_parallel",
    "Leaves.C17_csr_deterministic"
   ],
   "note": ""
  },
  {
   "property": "C18",
   "status": "proved",
   "theorems": [
    "Leaves.C18_dense_no_race",
    "Leaves.C18_csr_no_race"
   ],
   "note": ""
  },
  {
   "property": "C19",
   "status": "proved",
   "theorems": [
    "Leaves.C19_dense_terminates",
    "Leaves.C19_csr_terminates"
   ],
   "note": ""
  },
  {
   "property": "C20",
   "status": "partial",
   "theorems": [
    "Leaves.C20_csr_to_dense",
    "Leaves.C20_dense_to_csr_partial",
    "Leaves.BatchExample.C20_single_feature_fails"
   ],
   "note": "False for models that split on features they do not announce, such as all single-feature models (proved); proved for all others."
  },
  {
   "property": "C21",
   "status": "partial",
   "theorems": [
    "Leaves.C21_buffer_independent",
    "Leaves.PredictExample.C21_linear_leaf_view_stale"
   ],
   "note": "False for leaf views of linear models (proved: Predict succeeds and keeps the old buffer); proved for all others."
  },
  {
   "property": "C22",
   "status": "proved",
   "theorems": [
    "Leaves.C22_leaf_layout",
    "Leaves.C22_value_of_leaf",
    "Leaves.C22_leaf_bound",
    "Leaves.C22_lg_text_leaf_bound"
   ],
   "note": ""
  },
  {
   "property": "C23",
   "status": "partial",
   "theorems": [
    "Leaves.C23_nleaves_layout",
    "Leaves.C23_lg_text_leaf_count",
    "Leaves.C23_json_leaf_count",
    "Leaves.C61_xg_leaf_indices",
    "Leaves.C61_sk_leaf_indices",
    "Leaves.C23_sk_single_leaf_counts_two"
   ],
   "note": "The count is right for LightGBM text and JSON, XGBoost and scikit-learn trees with a split; false for scikit-learn trees without one, which count two leaves (proved)."
  },
  {
   "property": "C24",
   "status": "proved",
   "theorems": [
    "Leaves.C24_outermost_view",
    "Leaves.C24_views_fit"
   ],
   "note": ""
  },
  {
   "property": "C25",
   "status": "proved",
   "theorems": [
    "Leaves.C25_range",
    "Leaves.C25_order",
    "Leaves.C25_predict"
   ],
   "note": "Assuming of math.Exp only that it is monotone, never NaN on non-NaN input and non-negative."
  },
  {
   "property": "C26",
   "status": "partial",
   "theorems": [
    "Leaves.C26_softmax_partial",
    "Leaves.C26_predict_partial",
    "Leaves.C26_overflow",
    "Leaves.C26_underflow",
    "Leaves.C26_all_zero"
   ],
   "note": "Proved when every exponential lies within 2^-1000..2^1000 (up to 2^20 classes), for the transformation and for Predict: range, order, and the exact sum of N outputs is within (N+4)*2^-52 of 1; false otherwise (proved)."
  },
  {
   "property": "C27",
   "status": "partial",
   "theorems": [
    "Leaves.C27_names_partial",
    "Leaves.C27_exponential_misnamed"
   ],
   "note": "Holds for every transformation but the exponential one, whose reported name is another's (proved)."
  },
  {
   "property": "C28",
   "status": "partial",
   "theorems": [
    "Leaves.C28_transform_applied_partial",
    "Leaves.PredictExample.C28_logistic_two_groups_stores_nothing",
    "Leaves.LgLoadExample.C28_loaded_model_stores_nothing"
   ],
   "note": "False when the transformation does not accept the number of raw scores (proved): the error is dropped. Proved when it does."
  },
  {
   "property": "C29",
   "status": "proved",
   "theorems": [
    "Leaves.C29_leaf_needs_all"
   ],
   "note": ""
  },
  {
   "property": "C30",
   "status": "proved",
   "theorems": [
    "Leaves.C30_average_over_used"
   ],
   "note": ""
  },
  {
   "property": "C31",
   "status": "proved",
   "theorems": [
    "Leaves.C31_number_of_set_bits",
    "Leaves.C31_number_of_set_bits_mod"
   ],
   "note": ""
  },
  {
   "property": "C32",
   "status": "proved",
   "theorems": [
    "Leaves.C32_first_non_zero_bit",
    "Leaves.C32_first_non_zero_bit_error"
   ],
   "note": ""
  },
  {
   "property": "C33",
   "status": "proved",
   "theorems": [
    "Leaves.C33_construct_bitset",
    "Leaves.C33_negative_ignored"
   ],
   "note": ""
  },
  {
   "property": "C34",
   "status": "proved",
   "theorems": [
    "Leaves.C34_threshold_roundtrip",
    "Leaves.C34_leaf_index_exact"
   ],
   "note": ""
  },
  {
   "property": "C35",
   "status": "proved",
   "theorems": [
    "Leaves.C35_block_read_back",
    "Leaves.C35_block_at_end",
    "Leaves.C35_one_leading_blank"
   ],
   "note": ""
  },
  {
   "property": "C36",
   "status": "proved",
   "theorems": [
    "Leaves.C36_two_equals_rejected",
    "Leaves.C36_io_error_rejected",
    "Leaves.C36_no_newline_rejected",
    "Leaves.C36_texts_covered",
    "Leaves.C36_terminates",
    "Leaves.C36_consumes"
   ],
   "note": ""
  },
  {
   "property": "C37",
   "status": "proved",
   "theorems": [
    "Leaves.C37_uint32_slice",
    "Leaves.C37_int32_slice",
    "Leaves.C37_int",
    "Leaves.C37_float64_slice",
    "Leaves.C37_missing_field"
   ],
   "note": ""
  },
  {
   "property": "C38",
   "status": "proved",
   "theorems": [
    "Leaves.C38_lg_text_consistent",
    "Leaves.C38_lg_class_count",
    "Leaves.C38_lg_json_consistent",
    "Leaves.C38_lg_json_fits"
   ],
   "note": ""
  },
  {
   "property": "C39",
   "status": "proved",
   "theorems": [
    "Leaves.C39_written_model",
    "Leaves.C39_text_file",
    "Leaves.C39_rest_irrelevant"
   ],
   "note": ""
  },
  {
   "property": "C40",
   "status": "proved",
   "theorems": [
    "Leaves.C40_raw_by_default",
    "Leaves.C40_objective_decides",
    "Leaves.C40_loads_with_transformation",
    "Leaves.C40_objective_unique",
    "Leaves.C40_unknown_rejected",
    "Leaves.C40_transform_or_error",
    "Leaves.C40_fits"
   ],
   "note": ""
  },
  {
   "property": "C41",
   "status": "proved",
   "theorems": [
    "Leaves.C41_header",
    "Leaves.C41_tree",
    "Leaves.C41_gbtree",
    "Leaves.C41_linear",
    "Leaves.C41_string_and_slice",
    "Leaves.C41_gbtree_injective",
    "Leaves.C41_header_iff",
    "Leaves.C41_tree_iff",
    "Leaves.C41_gbtree_iff",
    "Leaves.C41_linear_iff"
   ],
   "note": ""
  },
  {
   "property": "C42",
   "status": "proved",
   "theorems": [
    "Leaves.C42_header",
    "Leaves.C42_tree",
    "Leaves.C42_gbtree",
    "Leaves.C42_linear",
    "Leaves.C42_truncated_file"
   ],
   "note": ""
  },
  {
   "property": "C43",
   "status": "partial",
   "theorems": [
    "Leaves.C43_loaded_partial",
    "Leaves.XgFileExample.C43_zero_groups_loads",
    "Leaves.XgFileExample.C43_tree_ignored"
   ],
   "note": "False: a file announcing 0 groups loads, and so does one whose tree count is not a multiple of its groups (both proved). Proved when the file announces at least one group and a multiple of it in trees."
  },
  {
   "property": "C44",
   "status": "proved",
   "theorems": [
    "Leaves.C44_weighted_sum",
    "Leaves.C44_unit_weights",
    "Leaves.C44_unit_dart_file",
    "Leaves.DartExample.C44_unit_dart_example"
   ],
   "note": ""
  },
  {
   "property": "C45",
   "status": "proved",
   "theorems": [
    "Leaves.C45_linear_sum"
   ],
   "note": ""
  },
  {
   "property": "C46",
   "status": "partial",
   "theorems": [
    "Leaves.C46_csr_from_array_partial",
    "Leaves.C46_dense_from_array_partial",
    "Leaves.MatExample.C46_negative_dimensions"
   ],
   "note": "Proved for non-negative dimensions whose product fits an int; false for two negative ones (proved)."
  },
  {
   "property": "C47",
   "status": "partial",
   "theorems": [
    "Leaves.C47_csr_valid",
    "Leaves.C47_dense_libsvm_partial",
    "Leaves.C47_dense_csv_partial",
    "Leaves.C47_dense_csv_skip_partial",
    "Leaves.MatExample.C47_empty_row_breaks_shape"
   ],
   "note": "Proved for sparse matrices, and for full ones unless the first column is skipped and rows have nothing else; false then (proved)."
  },
  {
   "property": "C48",
   "status": "partial",
   "theorems": [
    "Leaves.C48_csr_partial",
    "Leaves.C48_csr_bare_partial",
    "Leaves.C48_dense",
    "Leaves.C48_dense_rejects_gap",
    "Leaves.C48_empty_row_rejected",
    "Leaves.MatExample.C48_double_space_drops"
   ],
   "note": "Proved for matrices whose rows all have entries; rows without entries are rejected (proved)."
  },
  {
   "property": "C49",
   "status": "partial",
   "theorems": [
    "Leaves.C49_csv_roundtrip_partial",
    "Leaves.MatExample.C49_empty_shape_lost"
   ],
   "note": "Proved for all matrices with at least one row and column; the shape of others is lost (proved)."
  },
  {
   "property": "C50",
   "status": "partial",
   "theorems": [
    "Leaves.C50_csv_partial",
    "Leaves.C50_csv_written_partial",
    "Leaves.MatExample.C50_leading_empty_lost",
    "Leaves.MatExample.C50_blank_row_ends"
   ],
   "note": "Proved when no line is empty or begins or ends with white space; false for empty fields at the ends of a line with a white-space delimiter and for rows with a single, empty field (proved)."
  },
  {
   "property": "C51",
   "status": "proved",
   "theorems": [
    "Leaves.C51_decode",
    "Leaves.C51_every_value",
    "Leaves.C51_value_unique"
   ],
   "note": ""
  },
  {
   "property": "C52",
   "status": "proved",
   "theorems": [
    "Leaves.C52_unicode",
    "Leaves.C52_line",
    "Leaves.C52_zero_escape_kept"
   ],
   "note": "Proved for the two escapes the statement names; the further escapes of newer Python versions are left as they are (proved for one)."
  },
  {
   "property": "C53",
   "status": "partial",
   "theorems": [
    "Leaves.C53_fetch_partial",
    "Leaves.C53_shared_partial",
    "Leaves.PickleExample.C53_list_stale",
    "Leaves.PickleExample.C53_state_lost"
   ],
   "note": "False for lists extended and for objects given a state after being memoised (both proved); proved for other objects, including dicts."
  },
  {
   "property": "C54",
   "status": "proved",
   "theorems": [
    "Leaves.C54_node_record",
    "Leaves.C54_records_covered",
    "Leaves.C54_chunks",
    "Leaves.C54_bad_length"
   ],
   "note": ""
  },
  {
   "property": "C55",
   "status": "proved",
   "theorems": [
    "Leaves.C55_prior_once",
    "Leaves.C55_first_only"
   ],
   "note": ""
  },
  {
   "property": "C56",
   "status": "partial",
   "theorems": [
    "Leaves.C56_consistent_partial",
    "Leaves.SkModelExample.C56_no_groups",
    "Leaves.SkModelExample.C56_negative_estimators"
   ],
   "note": "Proved for every input that loads with at least one tree; inputs with no classes or with a negative number of estimators can load as empty models (proved)."
  },
  {
   "property": "C57",
   "status": "partial",
   "theorems": [
    "Leaves.RobustExample.C57_text_short_arrays",
    "Leaves.RobustExample.C57_text_many_leaves",
    "Leaves.RobustExample.C57_json_negative_category",
    "Leaves.RobustExample.C57_xg_long_string",
    "Leaves.RobustExample.C57_pickle_opcode",
    "Leaves.CrashExample.C57_sk_child_out_of_range",
    "Leaves.C57_lg_text_partial",
    "Leaves.C57_json_partial",
    "Leaves.C57_xg_partial",
    "Leaves.C57_xg_linear_partial",
    "Leaves.C57_pickle_partial",
    "Leaves.C57_sk_model_partial",
    "Leaves.C57_sklearn_partial",
    "Leaves.SkCrashExample.C57_sk_negative_classes",
    "Leaves.SkCrashExample.C57_sk_no_dimension",
    "Leaves.SkCrashExample.C57_sk_short_number"
   ],
   "note": "False: witnesses of input that crashes each loader are proved. Proved for every loader: what is wrong with the input whenever it crashes."
  },
  {
   "property": "C58",
   "status": "partial",
   "theorems": [
    "Leaves.BatchExample.C20_single_feature_fails"
   ],
   "note": "False: a single-feature model announces 0 features and PredictCSR panics (proved)."
  },
  {
   "property": "C59",
   "status": "partial",
   "theorems": [
    "Leaves.C59_length_check_partial",
    "Leaves.C59_product_wraps"
   ],
   "note": "Proved while rows times outputs stays below 2^63; false beyond, where the product wraps (proved)."
  },
  {
   "property": "C60",
   "status": "proved",
   "theorems": [
    "Leaves.C60_batches_tile",
    "Leaves.C60_each_once",
    "Leaves.C60_trace_exists",
    "Leaves.C60_limit_sharp"
   ],
   "note": ""
  },
  {
   "property": "C61",
   "status": "proved",
   "theorems": [
    "Leaves.C61_xg_leaf_indices",
    "Leaves.C61_json_leaf_indices",
    "Leaves.C61_sk_leaf_indices",
    "Leaves.C04_lg_text_leaf_index"
   ],
   "note": ""
  },
  {
   "property": "C62",
   "status": "partial",
   "theorems": [
    "Leaves.C62_xgboost_file_le",
    "Leaves.C62_xgboost_file_partial",
    "Leaves.C62_linear_file"
   ],
   "note": "Proved for gblinear; for trees proved with the code's comparison (<=), and with XGBoost's (<) for rows without a value equal to a split condition (C06 shows equality fails)."
  },
  {
   "property": "C63",
   "status": "proved",
   "theorems": [
    "Leaves.C63_sklearn_file"
   ],
   "note": ""
  },
  {
   "property": "C64",
   "status": "partial",
   "theorems": [
    "Leaves.C64_features_partial",
    "Leaves.SkModelExample.C64_features_wrong"
   ],
   "note": "False when max_features differs from the number of features (proved); proved when they are equal and at least 2."
  },
  {
   "property": "C65",
   "status": "proved",
   "theorems": [
    "Leaves.C65_lg_text",
    "Leaves.C65_lg_json",
    "Leaves.C65_xg",
    "Leaves.C65_xg_linear",
    "Leaves.C65_sklearn"
   ],
   "note": ""
  },
  {
   "property": "C66",
   "status": "partial",
   "theorems": [
    "Leaves.RobustExample.C66_cyclic_tree",
    "Leaves.CyclicExample.C66_xgboost_shared",
    "Leaves.CyclicExample.C66_sklearn_shared",
    "Leaves.CyclicExample.C66_json_leaves",
    "Leaves.C66_endless",
    "Leaves.C09_text_file",
    "Leaves.C09_xgboost_file",
    "Leaves.C09_linear_file",
    "Leaves.C09_sklearn_file",
    "Leaves.C09_json_file"
   ],
   "note": "False: a LightGBM text file whose root is its own left child loads and never returns a prediction (proved); so does an XGBoost or scikit-learn file in which both children of a split are the same node, and a JSON tree that understates its number of leaves (proved). A prediction is endless exactly if the row leads from split to split forever (proved). Proved for well-formed files."
  },
  {
   "property": "C67",
   "status": "proved",
   "theorems": [
    "Leaves.C67_json_file",
    "Leaves.C67_document"
   ],
   "note": ""
  },
  {
   "property": "C68",
   "status": "partial",
   "theorems": [
    "Leaves.C68_text_json_partial",
    "Leaves.JsonModelExample.C68_forest_fails",
    "Leaves.C68_json_version",
    "Leaves.JsonDocExample.C68_version_fails"
   ],
   "note": "Proved for boosted models with a dump of version v2; false for averaging forests, whose JSON dumps load as sums (proved), and for models of version v3, whose text files load and whose dumps are rejected (proved)."
  },
  {
   "property": "C69",
   "status": "partial",
   "theorems": [
    "Leaves.C69_rearranged_partial",
    "Leaves.JsonDocExample.C69_unreadable_member",
    "Leaves.JsonDocExample.C69_letter_case",
    "Leaves.JsonDocExample.C69_integer_text",
    "Leaves.JsonDocExample.C69_split_as_leaf"
   ],
   "note": "Proved for documents within the parser's nesting limit whose unknown members have numbers that fit a float64; false otherwise (proved: one unreadable number in an unknown member makes the loader reject the file). Also proved: leaf_value is the one name whose letter case matters, and integers written with a fraction are rejected; and a split with an empty missing_type and a leaf_value is loaded as a leaf."
  },
  {
   "property": "C70",
   "status": "proved",
   "theorems": [
    "Leaves.C70_accepted",
    "Leaves.C70_other_class"
   ],
   "note": "For pickles as described by the specification of protocol 0 (any memoisation)."
  },
  {
   "property": "C71",
   "status": "partial",
   "theorems": [
    "Leaves.C71_transform",
    "Leaves.C71_count",
    "Leaves.C71_raw_unchecked"
   ],
   "note": "Proved for all transformations; the raw and leaf-index transformations accept any number of values, whatever number they announce (proved)."
  },
  {
   "property": "C72",
   "status": "partial",
   "theorems": [
    "Leaves.C72_close",
    "Leaves.C72_not_far",
    "Leaves.C72_slices_close",
    "Leaves.C72_slices_not_far_partial",
    "Leaves.C72_lengths",
    "Leaves.C72_count",
    "Leaves.C72_count_zero",
    "Leaves.C72_nan_unnoticed",
    "Leaves.C72_sigmoid"
   ],
   "note": "Proved for numbers; false for NaN, which the slice comparisons take for equal to every number (proved)."
  },
  {
   "property": "C73",
   "status": "proved",
   "theorems": [
    "Leaves.C73_untested",
    "Leaves.C73_untested_single",
    "Leaves.C73_surplus",
    "Leaves.C73_wider_matrix"
   ],
   "note": "For every model value; the last two for models that fit together as the loaders build them."
  },
  {
   "property": "C74",
   "status": "proved",
   "theorems": [
    "Leaves.C74_next_estimator",
    "Leaves.C74_next_estimator_xg"
   ],
   "note": "The averaging forest is excluded: its scores are divided by the number of estimators."
  },
  {
   "property": "C75",
   "status": "proved",
   "theorems": [
    "Leaves.C75_csr_rows",
    "Leaves.C75_same_values",
    "Leaves.C75_order",
    "Leaves.C75_default",
    "Leaves.C75_beyond"
   ],
   "note": ""
  },
  {
   "property": "C76",
   "status": "partial",
   "theorems": [
    "Leaves.C76_libsvm_partial",
    "Leaves.C76_csv_partial",
    "Leaves.C76_libsvm_dense_partial"
   ],
   "note": "For well-formed files with non-empty rows; what the readers do with other files is the subject of C47 to C50 (some of them are read without an error as something else)."
  },
  {
   "property": "C77",
   "status": "proved",
   "theorems": [
    "Leaves.C77_independent",
    "Leaves.C77_all_return",
    "Leaves.CallsExample.C77_shared_slice"
   ],
   "note": "With slices that overlap it fails (proved): two equal calls sharing a slice may leave twice the prediction. That the methods write nothing but predictions is read off the code when modelling it."
  },
  {
   "property": "C78",
   "status": "partial",
   "theorems": [
    "Leaves.C78_partial",
    "Leaves.C78_row_unchanged_partial",
    "Leaves.C78_nothing_else",
    "Leaves.AliasExample.C78_overlap"
   ],
   "note": "Missing: overlapping slices and a model without transformation, where the claim is false: predictInner clears predictions before it reads the row (proved with a witness: 202, 2020 become 101, 2010). That nothing outside predictions is written is proved without restriction."
  },
  {
   "property": "C79",
   "status": "proved",
   "theorems": [
    "Leaves.C79_text_file",
    "Leaves.C79_json_file",
    "Leaves.C79_xgboost_file",
    "Leaves.C79_sklearn_file",
    "Leaves.C79_linear_file",
    "Leaves.MonotoneExample.C79_missing_breaks"
   ],
   "note": "Where products are formed (averaging forests, dart weights, scikit-learn's learning rate, linear models) the factors must not be negative and x*y + z must be fused everywhere or nowhere on the platform. Logistic predictions need exp to be monotone, not negative, and NaN for NaN. A witness shows that the restriction to values that are not missing is needed."
  },
  {
   "property": "C80",
   "status": "proved",
   "theorems": [
    "Leaves.C80_text",
    "Leaves.C80_json",
    "Leaves.C80_xgboost",
    "Leaves.C80_linear",
    "Leaves.C80_exclusive",
    "Leaves.C80_sklearn"
   ],
   "note": "A JSON dump of a random forest is called 'lightgbm.gbdt', as JSON dumps do not record averaging (see C68)."
  },
  {
   "property": "C81",
   "status": "partial",
   "theorems": [
    "Leaves.C81_text_file",
    "Leaves.C81_xgboost_file",
    "Leaves.C81_sklearn_file",
    "Leaves.C81_json_file",
    "Leaves.LeafFilesExample.C81_text_json_differ"
   ],
   "note": "The last sentence is false: the JSON loader ignores the dump's leaf_index and numbers the leaves in order of conversion, so the same row of the same model can get other leaf numbers than from the text file (C81_text_json_differ). A scikit-learn tree without splits has one leaf, NLeaves() says two (C23)."
  },
  {
   "property": "C82",
   "status": "proved",
   "theorems": [
    "Leaves.C82_text_file",
    "Leaves.C82_xgboost_file",
    "Leaves.C82_linear_file",
    "Leaves.C82_sklearn_file",
    "Leaves.C82_json_file",
    "Leaves.AccuracyExample.C82_average_inexact"
   ],
   "note": "Concerns raw scores that are finite; transformed outputs are the subject of C25 and C26. The bound cannot be an equality: a forest of six leaves of value 1 predicts less than 1 (C82_average_inexact)."
  },
  {
   "property": "C83",
   "status": "proved",
   "theorems": [
    "Leaves.C83_csv_nearest",
    "Leaves.C83_csv_overflow",
    "Leaves.C83_csv_roundtrip",
    "Leaves.C83_lightgbm_exact",
    "Leaves.DecimalExample.C83_needs_delimiter",
    "Leaves.DecimalExample.C83_sixteen_digits_lose"
   ],
   "note": "Removes the assumption on number formats from C49 and C39: strconv.ParseFloat and the verb %.19g are written out in Model/Strconv.lean as the Go library documents them (decimal and hexadecimal numerals, underscores, names of infinities and NaN) and the theorems assume that the platform has them. DecimalExample shows that a delimiter such as a point breaks the round trip and that 16 digits are not enough."
  },
  {
   "property": "C84",
   "status": "proved",
   "theorems": [
    "Leaves.C84_layout",
    "Leaves.C84_unambiguous",
    "Leaves.C84_file",
    "Leaves.C84_accepted",
    "Leaves.C84_rejected",
    "Leaves.C84_truncated",
    "Leaves.C84_numbers"
   ],
   "note": "Model/JsonText.lean writes out how encoding/json reads text; Spec/JsonText.lean is the grammar of RFC 8259 as a relation between values and texts. Note that garbage after the closing brace is accepted (C84_layout with any rest)."
  },
  {
   "property": "C85",
   "status": "partial",
   "theorems": [
    "Leaves.C85_matrix_partial",
    "Leaves.C85_too_short",
    "Leaves.BatchExample.C85_reads_behind_the_end",
    "Leaves.BatchExample.C85_short_panics"
   ],
   "note": "The first half holds when vals is long enough (C85_matrix_partial). The second half is false: the length of vals is never checked. A short slice with spare capacity gives predictions from memory behind its end without an error (C85_reads_behind_the_end), otherwise the call panics, after some predictions have been stored (C85_too_short, C85_short_panics)."
  },
  {
   "property": "C86",
   "status": "proved",
   "theorems": [
    "Leaves.C86_text_file",
    "Leaves.C86_json_file",
    "Leaves.C86_xgboost_file",
    "Leaves.C86_sklearn_file",
    "Leaves.C86_text_number",
    "Leaves.C86_json_number",
    "Leaves.C86_xgboost_number"
   ],
   "note": "Averaging forests, weighted trees and scikit-learn models need a platform that fuses x*y+z everywhere or nowhere, and nonnegative weights or learning rates. Scores that are NaN are left out of the comparison; the _number theorems say when there are none."
  },
  {
   "property": "C87",
   "status": "partial",
   "theorems": [
    "Leaves.C87_write_str",
    "Leaves.C87_inconsistent",
    "Leaves.C87_to_csv_partial",
    "Leaves.C87_file_roundtrip",
    "Leaves.WriteExample.C87_to_csv_silent"
   ],
   "note": "WriteStr has the property. ToCsvFile does not: the error of the deferred Flush of its buffer is dropped, so nil is returned on a full disk; C87_to_csv_silent is a witness with an empty file. C87_to_csv_partial says what remains: on nil at most the last 4096 bytes are missing, and nothing is missing if no write fails."
  },
  {
   "property": "C88",
   "status": "proved",
   "theorems": [
    "Leaves.C88_text_objective",
    "Leaves.C88_forest",
    "Leaves.C88_written_model"
   ],
   "note": "The objective forms are those of the specification Objective. The classes of binary and poisson models must be one, as LightGBM writes them."
  },
  {
   "property": "C89",
   "status": "proved",
   "theorems": [
    "Leaves.C89_text_binary",
    "Leaves.C89_text_multiclass",
    "Leaves.C89_text_exponential",
    "Leaves.C89_xgboost_file"
   ],
   "note": "ExpAccurate is the assumption about math.Exp; ProbabilityExample.accurate_exp shows that it can be met with eps = 2^-52. Multiclass and exponential models need scores up to 689, beyond which exp overflows."
  },
  {
   "property": "C90",
   "status": "partial",
   "theorems": [
    "Leaves.C90_text_whole",
    "Leaves.C90_text",
    "Leaves.C90_matrix_whole",
    "Leaves.C90_matrix",
    "Leaves.C90_xgboost_whole",
    "Leaves.C90_xgboost",
    "Leaves.C90_sklearn_whole",
    "Leaves.C90_sklearn_partial",
    "Leaves.C90_sklearn_empty_read",
    "Leaves.StreamExample.C90_sklearn_differs",
    "Leaves.C90_no_file",
    "Leaves.C90_model_files",
    "Leaves.C90_matrix_files"
   ],
   "note": "Proved for LightGBM text, XGBoost and matrices, and for all functions that open files. False for scikit-learn pickles: the decoder treats an empty read (0 bytes, no error) as an error, so a pickle that loads from one reader is rejected from another (C90_sklearn_empty_read for every pickle, C90_sklearn_differs for a classifier); C90_sklearn_partial covers readers without empty reads, files among them. LightGBM JSON is decoded by encoding/json from the whole text and not part of this property."
  },
  {
   "property": "C91",
   "status": "proved",
   "theorems": [
    "Leaves.C91_libsvm_dense",
    "Leaves.C91_libsvm_csr",
    "Leaves.C91_csv"
   ],
   "note": "With C90 the same holds for readers that deliver the text in pieces and for the functions that open a file."
  },
  {
   "property": "C92",
   "status": "partial",
   "theorems": [
    "Leaves.C92_xgboost",
    "Leaves.C92_linear",
    "Leaves.C92_sklearn",
    "Leaves.C92_json",
    "Leaves.C92_text_partial",
    "Leaves.C92_text_fails"
   ],
   "note": "Proved for XGBoost, linear, pickle and JSON files. False for LightGBM text: a file that ends inside its last tree can load with another leaf value, load and panic in prediction, or panic while loading (C92_text_fails). C92_text_partial: a cut file that is accepted has the complete header and all trees but the last, and agrees with the whole file in everything that does not use the last estimator."
  },
  {
   "property": "C93",
   "status": "partial",
   "theorems": [
    "Leaves.C93_rows_exist",
    "Leaves.C93_accepted",
    "Leaves.C93_error_changes_nothing",
    "Leaves.C93_entries_partial",
    "Leaves.CsrShapeExample.C93_fails"
   ],
   "note": "The first and last sentence are proved. The second is false: PredictCSR has no check of its arrays; malformed ones are accepted as other matrices or panic (C93_fails). C93_entries_partial: what the arrays of an accepted call have in common."
  },
  {
   "property": "C94",
   "status": "partial",
   "theorems": [
    "Leaves.C94_fields",
    "Leaves.C94_lines",
    "Leaves.C94_windows",
    "Leaves.C94_order",
    "Leaves.C94_unknown_partial",
    "Leaves.C94_equals_fails"
   ],
   "note": "Proved except for additional fields whose line has more than one equals sign: these make the file unreadable, so that a model with a feature named `colour=red` is rejected (C94_equals_fails). The input must end without an I/O error."
  },
  {
   "property": "C95",
   "status": "proved",
   "theorems": [
    "Leaves.C95_first_lines",
    "Leaves.C95_lines",
    "Leaves.C95_windows",
    "Leaves.C95_final_newline",
    "Leaves.C95_limit_csr",
    "Leaves.C95_limit_dense",
    "Leaves.C95_no_limit"
   ],
   "note": "For inputs that end with io.EOF; C90 extends it to readers that deliver the text in pieces."
  },
  {
   "property": "C96",
   "status": "proved",
   "theorems": [
    "Leaves.C96_characters",
    "Leaves.C96_lightgbm",
    "Leaves.C96_matrix",
    "Leaves.C96_encoding",
    "Leaves.C96_pieces",
    "Leaves.Strconv.Standard.ascii",
    "Leaves.C96_example"
   ],
   "note": "AsciiFloats (no numeral has a character beyond ASCII) follows from Go's ParseFloat, Strconv.Standard.ascii. JSON text is not included."
  },
  {
   "property": "C97",
   "status": "proved",
   "theorems": [
    "Leaves.C97_data",
    "Leaves.C97_label",
    "Leaves.C97_lightgbm",
    "Leaves.C97_example"
   ],
   "note": ""
  },
  {
   "property": "C98",
   "status": "proved",
   "theorems": [
    "Leaves.C98_whole",
    "Leaves.C98_binary",
    "Leaves.C98_text",
    "Leaves.C98_example",
    "Leaves.C98_text_example",
    "Leaves.C98_text_trailer"
   ],
   "note": "The readers are those of C90 (bytes in pieces) and C96 (text on bytes)."
  },
  {
   "property": "C99",
   "status": "proved",
   "theorems": [
    "Leaves.C99_pieces",
    "Leaves.C99_utf8",
    "Leaves.C99_prompt",
    "Leaves.C99_empty_reads",
    "Leaves.C99_example"
   ],
   "note": "The scanner of encoding/json is modelled as the state machine it is and proved to find the end of the first value of the grammar of C84."
  },
  {
   "property": "C100",
   "status": "partial",
   "theorems": [
    "Leaves.C100_lightgbm",
    "Leaves.C100_objective",
    "Leaves.C100_json",
    "Leaves.C100_xgboost",
    "Leaves.C100_linear_partial",
    "Leaves.C100_sklearn_partial",
    "Leaves.MachinesExample.C100_average_differs",
    "Leaves.MachinesExample.C100_category_differs",
    "Leaves.MachinesExample.C100_linear_differs",
    "Leaves.MachinesExample.C100_sklearn_differs"
   ],
   "note": "Proved for LightGBM models without average_output and rows whose values at categorical splits have an int32 (or are NaN where NaN is declared missing), for all XGBoost tree models, for linear XGBoost models on float32 rows and for scikit-learn models with learning rate one. False otherwise, each with a witness: averaging forests, linear models on float64 rows, scikit-learn models with another learning rate, and NaN as a category without declared missing values give different results on an amd64-like and an arm64-like machine."
  },
  {
   "property": "C101",
   "status": "proved",
   "theorems": [
    "Leaves.C101_dense",
    "Leaves.C101_csr",
    "Leaves.C101_in_place",
    "Leaves.C101_dense_nothing_else",
    "Leaves.C101_csr_nothing_else",
    "Leaves.AliasBatchExample.C101_threads",
    "Leaves.AliasBatchExample.C101_behind",
    "Leaves.AliasBatchExample.C101_wide",
    "Leaves.AliasBatchExample.C101_csr_behind"
   ],
   "note": "Slices that do not overlap: an equivalence of the sets of outcomes, both directions. In place: an equivalence under the stated conditions. The four witnesses show predictions that go wrong when a condition fails: two threads, predictions behind the matrix, more predictions than features, sparse values. The transformed predictions read the row at once; with several threads that is one possible schedule, which is all the witness needs."
  },
  {
   "property": "C102",
   "status": "partial",
   "theorems": [
    "Leaves.C102_xgboost",
    "Leaves.C102_text_partial",
    "Leaves.C102_json_partial",
    "Leaves.C102_sklearn_partial",
    "Leaves.C102_negative_count",
    "Leaves.C102_csr_memory",
    "Leaves.C102_csr_memory_example"
   ],
   "note": "False as a whole (C102_negative_count, C102_csr_memory with its example). Proved: for XGBoost without exception; for the other formats the only negative value is the smallest integer; PredictCSR panics, or returns an error without touching the predictions, whenever the row does not fit, with any number of threads under every schedule."
  },
  {
   "property": "C103",
   "status": "proved",
   "theorems": [
    "Leaves.C103_text",
    "Leaves.C103_objective",
    "Leaves.C103_json",
    "Leaves.C103_xgboost",
    "Leaves.C103_sklearn",
    "Leaves.PrefixExample.C103_example"
   ],
   "note": "Both files are loaded in the model and the two loaded ensembles are compared by the public predictions. The XGBoost and scikit-learn statements relate the two files by their contents (XgModel.Shortened, SkModel.shortened); for random forests the average is over the estimators asked for."
  },
  {
   "property": "C104",
   "status": "proved",
   "theorems": [
    "Leaves.C104_dense",
    "Leaves.C104_csr",
    "Leaves.C104_dense_piece",
    "Leaves.C104_csr_piece"
   ],
   "note": "The pieces are non-empty; an empty matrix is the subject of C18 and C19."
  },
  {
   "property": "C105",
   "status": "proved",
   "theorems": [
    "Leaves.C105_row",
    "Leaves.C105_single",
    "Leaves.C105_dense",
    "Leaves.C105_csr",
    "Leaves.C105_between",
    "Leaves.C105_zeros",
    "Leaves.C105_linear",
    "Leaves.CellsExample.C105_linear_zero_differs"
   ],
   "note": "C105_row and C105_single are equalities of whole executions (results, errors, crashes and stores). C105_linear_zero_differs shows that linear models do pass on the sign of a zero."
  },
  {
   "property": "C106",
   "status": "partial",
   "theorems": [
    "Leaves.C106_xgboost_partial",
    "Leaves.C106_sklearn_partial",
    "Leaves.SingleExample.C106_xgboost_differs",
    "Leaves.SingleExample.C106_sklearn_differs"
   ],
   "note": "False of the code. C106_xgboost_partial excludes exactly the rows with a value that does not exceed a split condition its rounding equals: split conditions are float32, so rounding moves no value across one. C106_sklearn_partial excludes the rows with a threshold between a value and its rounding. The two witnesses are whole files that split at 0.1 and the value 0.1: the libraries go right, leaves goes left. rounds32_exists and rounds32_nearest show that every value has a rounding and that round-to-nearest is one."
  },
  {
   "property": "C107",
   "status": "proved",
   "theorems": [
    "Leaves.C107_same_leaves",
    "Leaves.C107_dense",
    "Leaves.C107_csr",
    "Leaves.SameLeavesExample.C107_converse_fails"
   ],
   "note": "The leaf view may be asked with any number of estimators that it accepts. C107_converse_fails: equal predictions do not imply equal leaves."
  },
  {
   "property": "C108",
   "status": "proved",
   "theorems": [
    "Leaves.C108_row",
    "Leaves.C108_dense",
    "Leaves.C108_csr",
    "Leaves.C108_single",
    "Leaves.RawViewExample.C108_single_short"
   ],
   "note": "Leaf views are excluded: their transformation is not one of scores. C108_single_short shows the exception for short rows."
  },
  {
   "property": "C109",
   "status": "proved",
   "theorems": [
    "Leaves.C109_text",
    "Leaves.C109_json",
    "Leaves.C109_xgboost",
    "Leaves.C109_linear",
    "Leaves.ClassesExample.C109_example",
    "Leaves.ClassesExample.C109_linear_example"
   ],
   "note": "Raw scores: the softmax of several classes is no function of one class. scikit-learn files are left out because the initial estimator of a one-class model differs from the one of several classes. For linear models the weights and the bias of a class take the place of its trees."
  },
  {
   "property": "C110",
   "status": "proved",
   "theorems": [
    "Leaves.C110_text",
    "Leaves.C110_json",
    "Leaves.C110_xgboost",
    "Leaves.C110_sklearn",
    "Leaves.ColumnsExample.C110_example",
    "Leaves.ColumnsExample.C110_xgboost_example",
    "Leaves.ColumnsExample.C110_linear_differs"
   ],
   "note": "Tree models. C110_linear_differs shows that it is false for linear models, whose sum is rounded feature by feature."
  },
  {
   "property": "C111",
   "status": "proved",
   "theorems": [
    "Leaves.C111_dense_untouched",
    "Leaves.C111_dense_ok",
    "Leaves.C111_csr",
    "Leaves.NoRowsExample.C111_example"
   ],
   "note": "C111_dense_ok requires that rows times outputs does not wrap (beyond that the call may return an error); PredictCSR also allocates a row of the model's features, which has to fit into memory."
  },
  {
   "property": "C112",
   "status": "proved",
   "theorems": [
    "Leaves.C112_text",
    "Leaves.C112_text_bytes",
    "Leaves.C112_xgboost",
    "Leaves.C112_linear",
    "Leaves.C112_sklearn",
    "Leaves.C112_json",
    "Leaves.RawLoadExample.C112_not_supported"
   ],
   "note": "C112_not_supported: the converse does not hold, files with an objective that is not supported load only without their transformation."
  },
  {
   "property": "C113",
   "status": "proved",
   "theorems": [
    "Leaves.C113_text",
    "Leaves.C113_json",
    "Leaves.C113_xgboost",
    "Leaves.C113_sklearn",
    "Leaves.TreeOrderExample.C113_order_matters"
   ],
   "note": "The bound compares the two scores with each other, so no exact sum appears in the statement; the values in the bound are those of the first file's trees. The last theorem shows that the scores need not be equal."
  },
  {
   "property": "C114",
   "status": "proved",
   "theorems": [
    "Leaves.C114_lg_text",
    "Leaves.C114_json",
    "Leaves.C114_xgboost",
    "Leaves.C114_sklearn",
    "Leaves.C114_counts",
    "Leaves.VisitsExample.C114_reached"
   ],
   "note": "C114_counts ties the counted nodes to the loop of the prediction itself; C114_reached shows a row for which the bound is reached."
  },
  {
   "property": "C115",
   "status": "proved",
   "theorems": [
    "Leaves.C115_text",
    "Leaves.C115_json",
    "Leaves.C115_xgboost",
    "Leaves.ZeroTreesExample.C115_example",
    "Leaves.ZeroTreesExample.C115_dropped",
    "Leaves.ZeroTreesExample.C115_not_for_averages"
   ],
   "note": "C115_not_for_averages is the witness that average_output files are rightly excluded."
  },
  {
   "property": "C116",
   "status": "proved",
   "theorems": [
    "Leaves.C116_logistic",
    "Leaves.C116_ranking",
    "Leaves.C116_softmax",
    "Leaves.C116_ties"
   ],
   "note": "Unlike C26 (numbers that sum to 1) nothing is assumed on the range of the scores. C116_ties proves that equal probabilities of different scores occur."
  },
  {
   "property": "C117",
   "status": "partial",
   "theorems": [
    "Leaves.C117_refused_partial",
    "Leaves.C117_linear_ignored",
    "Leaves.C117_sqrt_ignored",
    "Leaves.UnsupportedExample.C117_linear_fails",
    "Leaves.UnsupportedExample.C117_sqrt_fails"
   ],
   "note": "Proved for versions, trees per iteration and objectives. False of linear trees: the linear models are not looked at, and a file with them loads as the file without (C117_linear_ignored; a leaf 2 + 3x predicts its plain value, C117_linear_fails). False of `regression sqrt`: the raw score is answered instead of its signed square (C117_sqrt_ignored, C117_sqrt_fails)."
  },
  {
   "property": "C118",
   "status": "partial",
   "theorems": [
    "Leaves.C118_text",
    "Leaves.C118_text_partial",
    "Leaves.C118_loads_partial",
    "Leaves.MemoryExample.C118_text_fails",
    "Leaves.MemoryExample.C118_no_bound",
    "Leaves.MemoryExample.C118_xgboost_fails"
   ],
   "note": "Stated exactly for well-formed LightGBM text files: they load when there is room for the number of splits that each tree announces, and panic otherwise. Proved when the arrays have an entry for each announced split: 24 bytes per character are enough. False in general: a valid text of at most 210 characters announces any number of splits below 2^32 and needs 24 bytes for each (C118_text_fails, C118_no_bound), and 144 bytes of an XGBoost file make the loader ask for any number of bytes below 2^64 before it reads on (C118_xgboost_fails)."
  },
  {
   "property": "C119",
   "status": "proved",
   "theorems": [
    "Leaves.C119_width",
    "Leaves.C119_fits"
   ],
   "note": "Obtained is defined by induction: the five loaders, closed under the two views. C119_fits says exactly which of these ensembles meet the hypothesis of the theorems about prediction: all but those of files that announce no groups (C43, C56), a transformation to one number of several raw scores (C28) and leaf views of linear models (C09)."
  },
  {
   "property": "C120",
   "status": "proved",
   "theorems": [
    "Leaves.C120_accepted",
    "Leaves.C120_refused",
    "Leaves.C120_linear_accepted",
    "Leaves.C120_linear_refused"
   ],
   "note": "Readable: the records have the counts they announce and fit in memory; other files are C57 and C118. Files in which a split is reached in two ways are accepted (C06, C66)."
  },
  {
   "property": "C121",
   "status": "proved",
   "theorems": [
    "Leaves.C121_text",
    "Leaves.C121_binary",
    "Leaves.C121_xgboost",
    "Leaves.OppositeExample.C121_example",
    "Leaves.OppositeExample.C121_scores"
   ],
   "note": "OneRounding is needed for averaged forests only; products of float32 numbers are exact. Example with two trees, and with the XGBoost file of C62, sign bits flipped."
  },
  {
   "property": "C122",
   "status": "proved",
   "theorems": [
    "Leaves.C122_text",
    "Leaves.C122_json",
    "Leaves.C122_xgboost",
    "Leaves.C122_linear",
    "Leaves.C122_softmax",
    "Leaves.RenumberExample.C122_example",
    "Leaves.RenumberExample.C122_scores",
    "Leaves.RenumberExample.C122_softmax_order"
   ],
   "note": "C122_softmax_order shows with three classes of scores 37, 0, 0 that the probabilities differ in their last bits when the first class is put last."
  },
  {
   "property": "C123",
   "status": "proved",
   "theorems": [
    "Leaves.C123_xgboost",
    "Leaves.C123_linear",
    "Leaves.UnusedExample.C123_example",
    "Leaves.UnusedExample.C123_used",
    "Leaves.UnusedExample.C123_linear_example"
   ],
   "note": "Equality of the whole outcome of the loaders on two byte strings; no validity of the trees is assumed. C123_used gives the witnesses that the fields kept equal do matter."
  },
  {
   "property": "C124",
   "status": "proved",
   "theorems": [
    "Leaves.C124_xgboost",
    "Leaves.C124_text",
    "Leaves.C124_sklearn",
    "Leaves.NodeOrderExample.C124_example",
    "Leaves.NodeOrderExample.C124_root",
    "Leaves.NodeOrderExample.C124_text_example",
    "Leaves.NodeOrderExample.C124_sklearn_example"
   ],
   "note": "XGBoost: equality of the whole outcome of the loader. LightGBM text and scikit-learn: the two loaded models agree in every prediction call; C124_text also gives the leaf indices."
  },
  {
   "property": "C125",
   "status": "proved",
   "theorems": [
    "Leaves.C125_text",
    "Leaves.C125_xgboost",
    "Leaves.ScaleExample.C125_example",
    "Leaves.ScaleExample.C125_three",
    "Leaves.ScaleExample.C125_xgboost_example"
   ],
   "note": "Random forests (averaged output) are left out: the product with 1/n may be subnormal and then loses digits in one of the two models only. C125_three is the witness that the factor has to be a power of two."
  },
  {
   "property": "C126",
   "status": "proved",
   "theorems": [
    "Leaves.C126_xgboost",
    "Leaves.C126_sklearn",
    "Leaves.FormatsExample.C126_xgboost_example",
    "Leaves.FormatsExample.C126_sparse",
    "Leaves.FormatsExample.C126_sklearn_example"
   ],
   "note": "C126_sparse is the witness that sparse prediction differs between an XGBoost model and its LightGBM twin. XGBoost itself compares with < and the library with <=; this property compares the two loaded models, C06 treats the difference to XGBoost."
  },
  {
   "property": "C127",
   "status": "proved",
   "theorems": [
    "Leaves.C127_text",
    "Leaves.C127_xgboost",
    "Leaves.PruneExample.C127_text_example",
    "Leaves.PruneExample.C127_xgboost_example"
   ],
   "note": "One direction only: the first model may crash on rows too short for a removed split (a model on a single feature announces no features), where the second one predicts. Leaf views are left out: leaf numbers change."
  },
  {
   "property": "C128",
   "status": "proved",
   "theorems": [
    "Leaves.C128_text",
    "Leaves.MeaningExample.C128_example"
   ],
   "note": "C124 is the case of a mere renumbering, which also covers leaf views and the other formats."
  },
  {
   "property": "C129",
   "status": "proved",
   "theorems": [
    "Leaves.C129_text",
    "Leaves.LookedUp.unique",
    "Leaves.LookupExample.C129_example",
    "Leaves.LookupExample.C129_row"
   ],
   "note": "For the other formats the leaf numbers are the loader's own (C81), so nothing can be looked up in the file."
  },
  {
   "property": "C130",
   "status": "proved",
   "theorems": [
    "Leaves.C130_csv",
    "Leaves.C130_hex_exact",
    "Leaves.C130_unique",
    "Leaves.C130_hex_overflow",
    "Leaves.HexExample.C130_example",
    "Leaves.HexExample.C130_not_numbers"
   ],
   "note": "Under the assumption that strconv.ParseFloat does what the Go library documents (Strconv.Standard), as for C83. Spellings with underscores are shown in C130_not_numbers only."
  },
  {
   "property": "C131",
   "status": "proved",
   "theorems": [
    "Leaves.C131_text",
    "Leaves.C131_xgboost",
    "Leaves.UnitsExample.C131_text_example",
    "Leaves.UnitsExample.C131_xgboost_example"
   ],
   "note": "Conversions are functions on float64 that keep the order on a set of values given by the user; no conversion but the identity keeps the order of all float64."
  },
  {
   "property": "C132",
   "status": "proved",
   "theorems": [
    "Leaves.C132_libsvm",
    "Leaves.C132_pickle",
    "Leaves.HexExample.C132_libsvm_example",
    "Leaves.HexExample.C132_pickle_example"
   ],
   "note": "Under the assumption that strconv.ParseFloat does what the Go library documents (Strconv.Standard), as for C83 and C130."
  },
  {
   "property": "C133",
   "status": "proved",
   "theorems": [
    "Leaves.C133_xgboost",
    "Leaves.C133_sklearn",
    "Leaves.LeafOrderExample.C133_orders",
    "Leaves.LeafOrderExample.C133_sklearn_example"
   ],
   "note": "C81 gives the same for LightGBM text files, where the numbers are those of the file."
  },
  {
   "property": "C134",
   "status": "proved",
   "theorems": [
    "Leaves.C134_text",
    "Leaves.C134_xgboost",
    "Leaves.C134_sklearn",
    "Leaves.SameSplitsExample.C134_example",
    "Leaves.SameSplitsExample.C134_xgboost_example",
    "Leaves.SameSplitsExample.C134_sklearn_example"
   ],
   "note": ""
  },
  {
   "property": "C135",
   "status": "proved",
   "theorems": [
    "Leaves.C135_underscores",
    "Leaves.C135_exactly",
    "Leaves.C135_refused",
    "Leaves.C135_csv",
    "Leaves.C135_libsvm_refused",
    "Leaves.NotationExample.right_places",
    "Leaves.NotationExample.wrong_places",
    "Leaves.NotationExample.C135_example",
    "Leaves.NotationExample.C135_refused_example",
    "Leaves.NotationExample.C135_libsvm_example"
   ],
   "note": "Assumes, as C83 and C130 do, that strconv.ParseFloat is the function of Model/Strconv (Strconv.Standard). Texts that end with an exponent of 10000 or more are left out: strconv stops counting there."
  },
  {
   "property": "C136",
   "status": "proved",
   "theorems": [
    "Leaves.C136_text",
    "Leaves.C136_xgboost",
    "Leaves.C136_sklearn",
    "Leaves.WrittenExample.C136_loads",
    "Leaves.WrittenExample.C136_example",
    "Leaves.WrittenExample.C136_xgboost_example",
    "Leaves.WrittenExample.C136_sklearn_example"
   ],
   "note": "Assumes, as C83 and C130 do, that strconv.ParseFloat is the function of Model/Strconv. Texts with exponents of 10000 or more are not described."
  }
 ]
}
