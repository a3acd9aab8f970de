{
 "claims": [
  {
   "property": "C01",
   "status": "proved",
   "theorems": [
    "Boo.C01_depth",
    "Boo.C01_height"
   ],
   "note": "any arithmetic, any sort"
  },
  {
   "property": "C02",
   "status": "proved",
   "theorems": [
    "Boo.C02_leaf_iff_no_children",
    "Boo.C02_predict_total",
    "Boo.C02_predict_total_rows"
   ],
   "note": "any arithmetic with IEEE comparison laws"
  },
  {
   "property": "C03",
   "status": "proved",
   "theorems": [
    "Boo.C03_leaves_partition",
    "Boo.C03_exactly_once"
   ],
   "note": "any arithmetic"
  },
  {
   "property": "C04",
   "status": "proved",
   "theorems": [
    "Boo.C04_training_row"
   ],
   "note": "any arithmetic with IEEE comparison laws"
  },
  {
   "property": "C05",
   "status": "proved",
   "theorems": [
    "Boo.C05_branches"
   ],
   "note": "any arithmetic"
  },
  {
   "property": "C06",
   "status": "partial",
   "theorems": [
    "Boo.C06_exact",
    "Boo.C06_weight",
    "Boo.C06_violated_weight",
    "Boo.C06_binary64_left_partial",
    "Boo.C06_binary64_grid_partial",
    "Boo.C06_binary64_partial",
    "Boo.C06_decimal_partial",
    "Boo.C06_violated_binary64",
    "Boo.C06_violated_overflow"
   ],
   "note": "violated in float64: the midpoint of two adjacent floats rounds up (or the sum overflows) and the right child is empty; and for MinChildWeight of 2^63 and more (or NaN) int(MinChildWeight) is negative on amd64 and the limit has no effect. Proved: exact arithmetic in full; float64 for the left child, and in full for data without neighbouring float64 values in a column, which includes all numbers of at most 15 significant digits; negation with witnesses"
  },
  {
   "property": "C07",
   "status": "proved",
   "theorems": [
    "Boo.C07_xgb_split",
    "Boo.C07_xgb_leaf",
    "Boo.C07_regular_split",
    "Boo.C07_regular_leaf"
   ],
   "note": "exact arithmetic; hessians nonnegative with h+Lambda>0 (all losses of the package give that for Lambda>0 or positive hessians)"
  },
  {
   "property": "C08",
   "status": "partial",
   "theorems": [
    "Boo.C08_violated",
    "Boo.C08_root_partial",
    "Boo.C08_depth_one_partial"
   ],
   "note": "violated below the root: clone drops AllowedColumns. Proved: negation with witness; the root split and trees of depth 1 respect the list"
  },
  {
   "property": "C09",
   "status": "proved",
   "theorems": [
    "Boo.C09_value",
    "Boo.C09_value_optimal"
   ],
   "note": "exact arithmetic"
  },
  {
   "property": "C10",
   "status": "proved",
   "theorems": [
    "Boo.C10_node_mean",
    "Boo.C10_predictions"
   ],
   "note": "exact arithmetic"
  },
  {
   "property": "C100",
   "status": "proved",
   "theorems": [
    "Boo.C100_more_rounds",
    "Boo.C100_monotone",
    "Boo.C100_guess"
   ],
   "note": "exact real arithmetic with the real exponential"
  },
  {
   "property": "C101",
   "status": "proved",
   "theorems": [
    "Boo.C101_rows",
    "Boo.C101_accuracy",
    "Boo.C101_probability",
    "Boo.C101_xgboost_xor",
    "Boo.C101_binary64_rows",
    "Boo.C101_binary64_accuracy"
   ],
   "note": "exact real arithmetic with the real exponential; C101_binary64_rows and C101_binary64_accuracy prove the same in binary64 with rounding, for SQErrLoss, any order of additions in floats.Sum and any exponential within the error ExpFloat allows; the xgboost limit is shown in binary64"
  },
  {
   "property": "C102",
   "status": "partial",
   "theorems": [
    "Boo.C102_tree_partial",
    "Boo.C102_model_partial",
    "Boo.C102_stopped_partial",
    "Boo.C102_violated",
    "Boo.C102_violated_columns"
   ],
   "note": "proved when no two columns offer equally good splits at a node of a fitted tree, in any arithmetic with the IEEE comparison laws; with ties the first column wins and the claim is false (C102_violated), and with column subsampling, which draws for positions (C102_violated_columns); C102_stopped_partial covers models with early stopping"
  },
  {
   "property": "C103",
   "status": "proved",
   "theorems": [
    "Boo.C103_rows",
    "Boo.C103_accuracy",
    "Boo.C103_trees",
    "Boo.C103_gamma"
   ],
   "note": "exact real arithmetic with the real exponential; the effect of Gamma is shown in binary64"
  },
  {
   "property": "C104",
   "status": "partial",
   "theorems": [
    "Boo.C104_depth",
    "Boo.C104_rows",
    "Boo.C104_model",
    "Boo.C104_model_rows",
    "Boo.C104_rows_binary64_partial",
    "Boo.C104_violated_binary64"
   ],
   "note": "the depth and round bounds in any arithmetic; the bound by rows in exact arithmetic, and in binary64 when no two values of a column are neighbouring floats; with neighbouring floats it is false (C104_violated_binary64)"
  },
  {
   "property": "C105",
   "status": "partial",
   "theorems": [
    "Boo.C105_regular",
    "Boo.C105_xgb",
    "Boo.C105_binary64_partial",
    "Boo.C105_violated_binary64"
   ],
   "note": "exact arithmetic; in binary64 a regular tree leaves the range by a rounding error at most, and it does (C105_violated_binary64)"
  },
  {
   "property": "C106",
   "status": "proved",
   "theorems": [
    "Boo.C106_trees",
    "Boo.C106_confidence",
    "Boo.C106_mse"
   ],
   "note": "exact real arithmetic with the real exponential; C106_mse shows in binary64 that the other loss does not respect the bound"
  },
  {
   "property": "C107",
   "status": "proved",
   "theorems": [
    "Boo.C107_work",
    "Boo.C107_error",
    "Boo.C107_strikes"
   ],
   "note": "any arithmetic; the cross-validations, gradient steps and random numbers are arbitrary"
  },
  {
   "property": "C108",
   "status": "proved",
   "theorems": [
    "Boo.C108_row",
    "Boo.C108_accuracy"
   ],
   "note": "exact real arithmetic with the real exponential; the logarithmic loss is computed by the reader, not by the package"
  },
  {
   "property": "C109",
   "status": "partial",
   "theorems": [
    "Boo.C109_kept",
    "Boo.C109_answer_partial",
    "Boo.C109_silent",
    "Boo.C109_early_stop"
   ],
   "note": "violated: after a failed cross-validation nothing is sent, and the answer always has EarlyStop 0"
  },
  {
   "property": "C11",
   "status": "proved",
   "theorems": [
    "Boo.C11_gain",
    "Boo.C11_objective"
   ],
   "note": "exact arithmetic"
  },
  {
   "property": "C110",
   "status": "proved",
   "theorems": [
    "Boo.C110_uniform",
    "Boo.C110_binary64",
    "Boo.C110_rounds"
   ],
   "note": "for independent uniform draws (rand.Float64 = k/2^53)"
  },
  {
   "property": "C111",
   "status": "proved",
   "theorems": [
    "Boo.C111_returns",
    "Boo.C111_share",
    "Boo.C111_assignment"
   ],
   "note": "for independent uniform draws of rand.IntN"
  },
  {
   "property": "C112",
   "status": "proved",
   "theorems": [
    "Boo.C112_frequencies",
    "Boo.C112_groups",
    "Boo.C112_rate"
   ],
   "note": "over the reals; squared error, all rows in each round, no early stopping"
  },
  {
   "property": "C113",
   "status": "proved",
   "theorems": [
    "Boo.C113_learns",
    "Boo.C113_small_gamma",
    "Boo.C113_rate"
   ],
   "note": "over the reals; squared error, no subsampling, no early stopping"
  },
  {
   "property": "C114",
   "status": "proved",
   "theorems": [
    "Boo.C114_best",
    "Boo.C114_limit"
   ],
   "note": "over the reals; squared error, MaxDepth 1, no subsampling, no early stopping"
  },
  {
   "property": "C115",
   "status": "proved",
   "theorems": [
    "Boo.C115_concurrent",
    "Boo.C115_slices",
    "Boo.C115_ends",
    "Boo.C115_completes",
    "Boo.C115_trained"
   ],
   "note": "small-step model of the calls; the assignment of the slice field predtmp is atomic in the model (a data race for the Go memory model)"
  },
  {
   "property": "C116",
   "status": "partial",
   "theorems": [
    "Boo.C116_violated",
    "Boo.C115_slices"
   ],
   "note": "violated: the given slice is never used; what holds is that the returned (new) slice has the probabilities"
  },
  {
   "property": "C117",
   "status": "proved",
   "theorems": [
    "Boo.C117_xgb_tree",
    "Boo.C117_regular_tree",
    "Boo.C117_model",
    "Boo.C117_trained"
   ],
   "note": "exact arithmetic; C117_trained over the reals, for models without early stopping"
  },
  {
   "property": "C118",
   "status": "proved",
   "theorems": [
    "Boo.C118_tree",
    "Boo.C118_model",
    "Boo.C118_near_tree",
    "Boo.C118_near_model",
    "Boo.C118_beyond"
   ],
   "note": "tree and model parts in any arithmetic; near and beyond in exact arithmetic"
  },
  {
   "property": "C119",
   "status": "proved",
   "theorems": [
    "Boo.C119_search",
    "Boo.C119_gradientGrid",
    "Boo.C119_hybridGrid"
   ],
   "note": "refinement of the heap program by a search on values (Spec/Climb)"
  },
  {
   "property": "C12",
   "status": "partial",
   "theorems": [
    "Boo.C12_exact",
    "Boo.C12_binary64_grid_partial",
    "Boo.C12_binary64_partial",
    "Boo.C12_decimal_partial",
    "Boo.C12_violated_binary64"
   ],
   "note": "violated in float64 for the same reason as C06. Proved: exact arithmetic in full, float64 for data without neighbouring values in a column, negation with witness"
  },
  {
   "property": "C120",
   "status": "proved",
   "theorems": [
    "Boo.C120_unseen",
    "Boo.C120_folds",
    "Boo.C120_bound",
    "Boo.C120_distinct_exact",
    "Boo.C120_distinct_binary64",
    "Boo.C120_grid_binary64"
   ],
   "note": "per model and per fold in any arithmetic; the bound on the mean in exact arithmetic; all labels different in exact and binary64"
  },
  {
   "property": "C121",
   "status": "proved",
   "theorems": [
    "Boo.C121_xgb",
    "Boo.C121_regular"
   ],
   "note": "exact arithmetic"
  },
  {
   "property": "C122",
   "status": "partial",
   "theorems": [
    "Boo.C122_sqerr_partial",
    "Boo.C122_mse_partial",
    "Boo.C122_default_partial",
    "Boo.C122_violated",
    "Boo.C122_violated_one_label"
   ],
   "note": "float64, any order of additions: SQErrLoss (regular and xgboost), xgboost with MSELoss and Lambda >= 2^-8, default options. Missing: false for regular boosting with MSELoss, the default loss of DefaultGOptions (C122_violated)"
  },
  {
   "property": "C123",
   "status": "partial",
   "theorems": [
    "Boo.C123_libsvm_partial",
    "Boo.C123_csv_partial",
    "Boo.C123_libsvm_regular",
    "Boo.C123_train_partial",
    "Boo.C123_train_regular",
    "Boo.C123_read_libsvm",
    "Boo.C123_read_csv",
    "Boo.C123_violated",
    "Boo.C123_probability"
   ],
   "note": "float64, any order of additions, any sort, numbers of at most 15 significant digits: in full for DefaultGOptions; for DefaultOptions under the condition that some round draws at least 5 rows, which on 5 or more rows has a probability of more than 99.96% (C123_probability). Missing: false for files with fewer than 5 rows (C123_violated)"
  },
  {
   "property": "C124",
   "status": "proved",
   "theorems": [
    "Boo.C124_tree",
    "Boo.C124_model",
    "Boo.C124_returns",
    "Boo.C124_early_stopping"
   ],
   "note": "any arithmetic, exp and sort; equality of the returned models. C124_early_stopping shows the limit of the claim: with early stopping, rows that are never drawn do decide when a class stops, since the loss is taken over all rows"
  },
  {
   "property": "C125",
   "status": "partial",
   "theorems": [
    "Boo.C125_cv_returns",
    "Boo.C125_grid_partial",
    "Boo.C125_readme_points",
    "Boo.C125_readme_partial",
    "Boo.C125_violated",
    "Boo.C125_readme_violated"
   ],
   "note": "violated: when all labels are different (or nothing is ever right) Grid returns nil options and no error, so that best.Rounds of the README dereferences nil. Everything else in the claim is proved: the cross-validations return (any arithmetic with an order), Grid returns the best of the points, its options train a model"
  },
  {
   "property": "C126",
   "status": "partial",
   "theorems": [
    "Boo.C126_step",
    "Boo.C126_search_partial",
    "Boo.C126_readme_partial",
    "Boo.C126_violated"
   ],
   "note": "violated: when all labels are different (or nothing is ever right) the searches return nil options and no error, and the README dereferences nil. Everything else in the claim is proved for every schedule: the shares stay between 0 and 2^9 during a search of at most 8 steps, so that no sample has a negative capacity and every training returns; the options returned train a model"
  },
  {
   "property": "C127",
   "status": "proved",
   "theorems": [
    "Boo.C127_train",
    "Boo.C127_tree",
    "Boo.C127_predict",
    "Boo.C127_accuracy"
   ],
   "note": "refinement between the model with slices as references into a memory (Model/Mem) and the model with slices as values; any arithmetic, exp and sort; the loss is one of the two of the package"
  },
  {
   "property": "C128",
   "status": "proved",
   "theorems": [
    "Boo.C128_train",
    "Boo.C128_labels",
    "Boo.C128_predict"
   ],
   "note": "on the model with slices as references (Model/Mem)"
  },
  {
   "property": "C129",
   "status": "proved",
   "theorems": [
    "Boo.C129_samples",
    "Boo.C129_values",
    "Boo.C129_copies",
    "Boo.C129_labels",
    "Boo.C129_shared",
    "Boo.C129_cv"
   ],
   "note": "on the model with slices as references (Model/Mem, Model/MemCV); keys are strings and are not part of that memory"
  },
  {
   "property": "C13",
   "status": "proved",
   "theorems": [
    "Boo.C13_predict_rows",
    "Boo.C13_predict_buffer",
    "Boo.C13_unused_features"
   ],
   "note": "every tree value, any arithmetic"
  },
  {
   "property": "C130",
   "status": "partial",
   "theorems": [
    "Boo.C130_schedule",
    "Boo.C130_ends",
    "Boo.C130_calls",
    "Boo.C130_in_order",
    "Boo.C130_train",
    "Boo.C130_options_partial",
    "Boo.C130_options_violated",
    "Boo.C130_classes_partial",
    "Boo.C130_classes_violated"
   ],
   "note": "all interleavings of the primitive reads, writes and allocations of Model/Mem and Model/MemCV; proved in full except for shared Options with MinChildWeight < 1, and for Accuracy with a larger number of classes on the same model, where the code races (C130_options_violated, C130_classes_violated); sends on channels come after the last access and are in C55-C63"
  },
  {
   "property": "C131",
   "status": "proved",
   "theorems": [
    "Boo.C131_folds",
    "Boo.C131_unseen",
    "Boo.C131_noise",
    "Boo.C131_uniform",
    "Boo.C131_grid_optimistic"
   ],
   "note": "folds in any arithmetic; means over all labellings in exact arithmetic; C131_grid_optimistic is the limit named in the statement"
  },
  {
   "property": "C132",
   "status": "proved",
   "theorems": [
    "Boo.C132_frequencies",
    "Boo.C132_prediction",
    "Boo.C132_accuracy"
   ],
   "note": "real arithmetic with the real exponential; squared error (the default loss of regular boosting is MSELoss); xgboost trees need not tell rows apart (C101_xgboost_xor)"
  },
  {
   "property": "C133",
   "status": "proved",
   "theorems": [
    "Boo.C133_increasing_tree",
    "Boo.C133_increasing",
    "Boo.C133_decimal_tree",
    "Boo.C133_decimal",
    "Boo.C133_pow2_tree",
    "Boo.C133_pow2",
    "Boo.C133_new_row_violated"
   ],
   "note": "float64 (the exact version with any sorting routine is C73); C133_increasing is for any data without neighbouring float64, C133_new_row_violated is the limit named in the statement; the hypothesis OnlyCompares holds for sort.Sort, which has only Less and Swap"
  },
  {
   "property": "C134",
   "status": "proved",
   "theorems": [
    "Boo.C134_training",
    "Boo.C134_model",
    "Boo.C134_unique",
    "Boo.C134_predicts"
   ],
   "note": "any arithmetic; StoppedRun (Spec/EarlyRun.lean) is the description; models without early stopping included; that the model need not predict what the table predicts when a stopped class is followed by one that goes on is C20_violated, and the 0 before a skipped round 0 is C27_violated"
  },
  {
   "property": "C135",
   "status": "proved",
   "theorems": [
    "Boo.C135_tree_values",
    "Boo.C135_tree_gamma",
    "Boo.C135_steps",
    "Boo.C135_lambda",
    "Boo.C135_limit",
    "Boo.C135_gamma"
   ],
   "note": "real arithmetic with the real exponential; regular boosting ignores both options (C90)"
  },
  {
   "property": "C136",
   "status": "proved",
   "theorems": [
    "Boo.C136_model",
    "Boo.C136_copies",
    "Boo.C136_regular",
    "Boo.C136_tree",
    "Boo.C136_weights_needed"
   ],
   "note": "exact arithmetic, any function in place of exp; C136_weights_needed is the claim that all three have to be multiplied; an order in which the labels are met differently can change the model already for k=1 (C95_violated)"
  },
  {
   "property": "C137",
   "status": "proved",
   "theorems": [
    "Boo.C137_reads_node",
    "Boo.C137_reads_meta",
    "Boo.C137_writes_node",
    "Boo.C137_writes_meta",
    "Boo.C137_same_model",
    "Boo.C137_words_violated",
    "Boo.C137_empty_accepted"
   ],
   "note": "goJSON (Model/JsonText.lean, Lemmas/JsonCodec.lean) is encoding/json; the grammar and the meaning of members are Spec/Json.lean; only the text of float64 numbers (JNum) is a parameter with laws. Integers have no largest value in the model: a number over 64 bits is an error in Go. C137_words_violated is the limit named in the statement, C137_empty_accepted says that {} and null are models"
  },
  {
   "property": "C138",
   "status": "proved",
   "theorems": [
    "Boo.C138_matrix",
    "Boo.C138_order",
    "Boo.C138_accuracy",
    "Boo.C138_equal_parts"
   ],
   "note": "Parts says that the labelled rows are those of the parts, in some order; matrixOf is MCConfusions(m,D).Matrix()"
  },
  {
   "property": "C139",
   "status": "proved",
   "theorems": [
    "Boo.C139_constant",
    "Boo.C139_nan",
    "Boo.C139_any_activation"
   ],
   "note": "exact arithmetic; row samples are not empty (MinSample >= 1 with SubSample < 1). C139_any_activation is about trainWith, the training loop with the activation function as a parameter (train, the code, is trainWith softmax); trick_trained is a training with the function that does nothing. The README (line 45) suspects the opposite: recorded in DESIGN.md"
  },
  {
   "property": "C14",
   "status": "proved",
   "theorems": [
    "Boo.C14_tree",
    "Boo.C14_single_leaf",
    "Boo.C14_ensemble",
    "Boo.C14_trained",
    "Boo.sumUp_exact"
   ],
   "note": "Tree and ensemble; order claim for NaN-free scores. A tree that is a single leaf returns an error."
  },
  {
   "property": "C140",
   "status": "partial",
   "theorems": [
    "Boo.C140_model",
    "Boo.C140_quiet",
    "Boo.C140_losses",
    "Boo.C140_last",
    "Boo.C140_stopped_partial",
    "Boo.C140_announced",
    "Boo.C140_text",
    "Boo.C140_log",
    "Boo.C140_violated"
   ],
   "note": "any arithmetic with base*1 = base; runs that return. The last clause is false of the code: a class stopped because its loss is at most 1e-6 is not announced (C140_violated); C140_stopped_partial has the line with the small loss as the alternative. The numbers are written with %.3f, of which only is used that it gives a text without white space; the date and time in front of the log lines are not modelled"
  },
  {
   "property": "C141",
   "status": "partial",
   "theorems": [
    "Boo.C141_same",
    "Boo.C141_quiet",
    "Boo.C141_grid_best",
    "Boo.C141_grid_heads",
    "Boo.C141_grid_under_partial",
    "Boo.C141_search_best",
    "Boo.C141_search_heads",
    "Boo.C141_search_under",
    "Boo.C141_text_grid",
    "Boo.C141_text_search",
    "Boo.C141_grid_violated",
    "Boo.C141_search_violated"
   ],
   "note": "runs that return. Two clauses are false of the code: with NCPUs = 2 or more a line New Best Accuracy of Grid can stand under a later header (C141_grid_violated; C141_grid_under_partial is for NCPUs = 1), and the options that a gradient search returns need not be those of its last line (C141_search_violated, a consequence of C57). C141_search_under is for real gradient steps (RealSteps, as in C58). Of the number formats only is used that they give texts without white space; the log of the cross-validation is not modelled"
  },
  {
   "property": "C142",
   "status": "partial",
   "theorems": [
    "Boo.C142_same",
    "Boo.C142_log_partial",
    "Boo.C142_error",
    "Boo.C142_text",
    "Boo.C142_violated"
   ],
   "note": "runs that return. The number in the messages about folds without a model is always the number of folds, never that of the fold (cv/cv.go:39 prints n and not i: C142_violated); C142_log_partial has the number of these messages. Date and time of the log are not modelled, nor how the logs of concurrent calls are mixed"
  },
  {
   "property": "C143",
   "status": "partial",
   "theorems": [
    "Boo.C143_main_partial",
    "Boo.C143_violated",
    "Boo.C143_few_violated",
    "Boo.C143_small_violated"
   ],
   "note": "exampleMain is the program. It panics on files whose labels are all different (nil options, C143_violated) and on files of 4 rows (a model without trees, C143_few_violated) and on all files of 4 to 6 rows (C143_small_violated, by C144); C143_main_partial says exactly when it ends and what it prints. ExampleWorld: the draws suffice to make the samples, and what the search sees is what is computed on the data (RealSearch, as in C126)"
  },
  {
   "property": "C144",
   "status": "partial",
   "theorems": [
    "Boo.C144_one_label_partial",
    "Boo.C144_few_violated",
    "Boo.C144_grid_partial",
    "Boo.C144_grid_violated",
    "Boo.C144_search_partial"
   ],
   "note": "C144_one_label_partial: 100 k / n, with k the folds that have a model, so 100 if all have one; C144_grid_partial and C144_search_partial: options are returned if the first fold of the first point draws all rows. The claim is false for few rows (fewer than MinSample + 2), where no fold has a model: the accuracy is 0 and Grid returns nil options (C144_few_violated, C144_grid_violated)"
  },
  {
   "property": "C145",
   "status": "partial",
   "theorems": [
    "Boo.C145_same",
    "Boo.C145_output_partial",
    "Boo.C145_violated"
   ],
   "note": "exampleMainV is the program with its output. The list of accuracies printed after Grid is always empty, although lines above it report accuracies (C145_violated); the rest of the statement is C145_output_partial. That the second training prints nothing is for gradient steps that GradStep can make (RealSteps, as in C58). ten_run is a run that ends"
  },
  {
   "property": "C146",
   "status": "proved",
   "theorems": [
    "Boo.C146_tree",
    "Boo.C146_model",
    "Boo.C146_accuracy",
    "Boo.C146_default",
    "Boo.C146_six"
   ],
   "note": "NoSplit and NoSplitData are the three conditions; C146_tree and C146_model are for any arithmetic with the order of floats (GoFloatOrd, which float64 has). C146_default is for float64 and at most five rows; C146_six shows that six rows can be split"
  },
  {
   "property": "C147",
   "status": "proved",
   "theorems": [
    "Boo.C147_frequencies",
    "Boo.C147_prediction",
    "Boo.C147_accuracy"
   ],
   "note": "exact real arithmetic, from C146 and C112. FitsAll is the assumption on the options, NoSplitData that no split is left"
  },
  {
   "property": "C148",
   "status": "partial",
   "theorems": [
    "Boo.C148_xgb_partial",
    "Boo.C148_regular_partial",
    "Boo.C148_signs_xgb_partial",
    "Boo.C148_signs_regular_partial",
    "Boo.C148_model_partial",
    "Boo.C148_two_values",
    "Boo.C148_violated"
   ],
   "note": "UniqueBest: at every node of the first tree all divisions with the best gain are the same division. Without it the claim is false: among equally good divisions the first in the order of the column is taken (C148_violated). SameOrders is the relation of the two data sets. C148_model_partial is for whole models (FittedWith: the options a tree was built for); C148_two_values is a case in which there are no ties"
  },
  {
   "property": "C149",
   "status": "partial",
   "theorems": [
    "Boo.C149_regular_partial",
    "Boo.C149_xgb_partial",
    "Boo.C149_model_partial",
    "Boo.C149_two_values",
    "Boo.C149_violated"
   ],
   "note": "C149_model_partial is for whole models; C149_two_values is a case in which its hypotheses are met for all labels and options. UniqueCut: at every node of the first tree the best split is unique, as a feature and a division of the rows (ties: C148_violated). OffThresholds: no value with changed sign is exactly at a threshold of its column; without it the claim is false (C149_violated), as a value at the threshold goes to the left for both signs. split_between: a threshold is the middle between two neighbouring values of the rows of its node."
  },
  {
   "property": "C15",
   "status": "partial",
   "theorems": [
    "Boo.C15_violated",
    "Boo.C15_progress_partial",
    "Boo.C15_sums_partial",
    "Boo.C15_unique_partial",
    "Boo.C15_sequential_partial",
    "Boo.C15_merge_partial"
   ],
   "note": "The code violates uniqueness: the lookup is outside the lock. Proved: negation by an interleaving; sums conserved in every interleaving; unique when each new feature is added by one call; sequential use correct."
  },
  {
   "property": "C16",
   "status": "proved",
   "theorems": [
    "Boo.C16_round_trip",
    "Boo.C16_error",
    "Boo.C16_ids",
    "Boo.C16_same_use"
   ],
   "note": "every tree and every following text, for every JSON codec with the stated laws; the training samples, which are not written, are the only difference"
  },
  {
   "property": "C17",
   "status": "partial",
   "theorems": [
    "Boo.C17_read_back_partial",
    "Boo.C17_writes",
    "Boo.C17_predictions_partial",
    "Boo.C17_violated",
    "Boo.C17_unknown_name_violated"
   ],
   "note": "The code violates the claim: the last round is never read back. Exact characterisation of what is read back for every model."
  },
  {
   "property": "C18",
   "status": "partial",
   "theorems": [
    "Boo.C18_regular_partial",
    "Boo.C18_violated"
   ],
   "note": "The code violates it for xgboost models (the kind is not restored); for regular models the order is that of the model without the last round."
  },
  {
   "property": "C19",
   "status": "proved",
   "theorems": [
    "Boo.C19_truncated"
   ],
   "note": "every model, every prefix of the file"
  },
  {
   "property": "C20",
   "status": "partial",
   "theorems": [
    "Boo.C20_partial",
    "Boo.C20_no_early_stop_partial",
    "Boo.C20_violated"
   ],
   "note": "Exact agreement of raw scores and probabilities, in any arithmetic, whenever no class was stopped early. With early stopping the code violates the claim: C20_violated is a binary64 run with valid options where the model predicts another class than training ended with."
  },
  {
   "property": "C21",
   "status": "partial",
   "theorems": [
    "Boo.C21_swapped_partial",
    "Boo.C21_violated"
   ],
   "note": "The code violates the claim: the two accessors return each other's value. C21_swapped_partial says what they return for every model trained without early stopping."
  },
  {
   "property": "C22",
   "status": "partial",
   "theorems": [
    "Boo.C22_rounds",
    "Boo.C22_requested_partial",
    "Boo.C22_returns",
    "Boo.C22_returns_binary64",
    "Boo.C22_violated"
   ],
   "note": "Number of rounds for every data set, options and draws; training returns. The code violates the claim without row subsampling when MinSample >= 1 (which Check demands): the model is empty and prediction panics."
  },
  {
   "property": "C23",
   "status": "proved",
   "theorems": [
    "Boo.C23_first_most_probable",
    "Boo.C23_classesFromProbs",
    "Boo.C23_raw_scores",
    "Boo.C23_label",
    "Boo.C23_violated_overflow"
   ],
   "note": "probability part: any IEEE arithmetic; raw scores: exact real arithmetic (in float64 the exponential overflows for large scores: negation with witness)"
  },
  {
   "property": "C24",
   "status": "proved",
   "theorems": [
    "Boo.C24_buffer",
    "Boo.C24_short_buffer",
    "Boo.C24_long_buffer_violated",
    "Boo.C24_dense",
    "Boo.C24_distribution",
    "Boo.C24_shift",
    "Boo.C24_violated_overflow"
   ],
   "note": "exact real arithmetic; in IEEE arithmetic overflow gives NaN (negation with witness); buffers of the same length: any arithmetic"
  },
  {
   "property": "C25",
   "status": "proved",
   "theorems": [
    "Boo.C25_accuracy",
    "Boo.C25_percentage",
    "Boo.C25_binary64"
   ],
   "note": "formula: any arithmetic; percentage, bounds and the 100 criterion: exact arithmetic; bounds in binary64"
  },
  {
   "property": "C26",
   "status": "partial",
   "theorems": [
    "Boo.C26_subSample",
    "Boo.C26_all",
    "Boo.C26_returns_partial",
    "Boo.C26_violated_negative"
   ],
   "note": "whenever it returns, the result is right in any arithmetic; it returns for s>=0; a negative s makes the capacity given to make negative: panic, negation with witness"
  },
  {
   "property": "C27",
   "status": "partial",
   "theorems": [
    "Boo.C27_off",
    "Boo.C27_for_good",
    "Boo.C27_reason_partial",
    "Boo.trainH_exists",
    "Boo.C27_violated"
   ],
   "note": "For every run. The reason part needs round 0 to be executed; when it is skipped the code compares the first loss with 0 and stops without a reason (C27_violated)."
  },
  {
   "property": "C28",
   "status": "partial",
   "theorems": [
    "Boo.C28_check_partial",
    "Boo.C28_check_float64_partial",
    "Boo.C28_valid_accepted",
    "Boo.C28_defaultX",
    "Boo.C28_violated_nan",
    "Boo.C28_defaultG_rejected"
   ],
   "note": "violated for NaN, which passes; proved for NaN-free options; DefaultGOptions is rejected"
  },
  {
   "property": "C29",
   "status": "partial",
   "theorems": [
    "Boo.C29_equal_iff_partial",
    "Boo.C29_equivalence_partial",
    "Boo.C29_clone_partial",
    "Boo.C29_violated_refl",
    "Boo.C29_violated_symm",
    "Boo.C29_violated_earlyStop"
   ],
   "note": "violated when TreeMethod is not \"exact\" and for EarlyStop; proved otherwise"
  },
  {
   "property": "C30",
   "status": "proved",
   "theorems": [
    "Boo.C30_gradient",
    "Boo.C30_hessian",
    "Boo.C30_mse_hessian"
   ],
   "note": "exact real arithmetic, HasDerivAt"
  },
  {
   "property": "C31",
   "status": "proved",
   "theorems": [
    "Boo.C31_mse",
    "Boo.C31_zero_iff",
    "Boo.C31_shape",
    "Boo.C31_scratch"
   ],
   "note": "exact arithmetic; independence of the scratch matrix: any arithmetic"
  },
  {
   "property": "C32",
   "status": "proved",
   "theorems": [
    "Boo.C32_normalization",
    "Boo.C32_buffer",
    "Boo.C32_dense",
    "Boo.C32_dense_sums"
   ],
   "note": "exact arithmetic"
  },
  {
   "property": "C33",
   "status": "proved",
   "theorems": [
    "Boo.C33_folds"
   ],
   "note": "every size, nfold and draw sequence on which the function returns"
  },
  {
   "property": "C34",
   "status": "partial",
   "theorems": [
    "Boo.C34_number_partial",
    "Boo.C34_few_partial",
    "Boo.C34_violated"
   ],
   "note": "The code violates it with fewer than 2 rows: division by zero. Proved for all other sizes."
  },
  {
   "property": "C35",
   "status": "proved",
   "theorems": [
    "Boo.C35_terminates"
   ],
   "note": "every fair draw sequence"
  },
  {
   "property": "C36",
   "status": "partial",
   "theorems": [
    "Boo.C36_labels_partial",
    "Boo.C36_violated"
   ],
   "note": "Rows and labels stay together; the code loses the keys of every data set."
  },
  {
   "property": "C37",
   "status": "proved",
   "theorems": [
    "Boo.C37_history"
   ],
   "note": "every number of calls"
  },
  {
   "property": "C38",
   "status": "partial",
   "theorems": [
    "Boo.C38_denseCol_partial",
    "Boo.C38_addToCol_partial",
    "Boo.C38_reject_partial",
    "Boo.C38_violated",
    "Boo.C38_violated_add"
   ],
   "note": "violated for k = number of columns, which is accepted; proved for valid columns and for k beyond"
  },
  {
   "property": "C39",
   "status": "proved",
   "theorems": [
    "Boo.C39_distinct",
    "Boo.C39_matrix",
    "Boo.C39_recover",
    "Boo.C39_empty",
    "Boo.C39_data"
   ],
   "note": "any label type"
  },
  {
   "property": "C40",
   "status": "proved",
   "theorems": [
    "Boo.C40_sampleSlice",
    "Boo.C40_sampleSlice_panics",
    "Boo.C40_sampleMatrix",
    "Boo.C40_transpose",
    "Boo.C40_transpose_twice"
   ],
   "note": ""
  },
  {
   "property": "C41",
   "status": "proved",
   "theorems": [
    "Boo.C41_argSort",
    "Boo.C41_sorted",
    "Boo.C41_memArgSort",
    "Boo.C41_long_buffer_violated",
    "Boo.C41_slice_swaps"
   ],
   "note": "any correct sort; a longer buffer gives a different result (extra theorem)"
  },
  {
   "property": "C42",
   "status": "partial",
   "theorems": [
    "Boo.C42_read_back_partial",
    "Boo.C42_newline_partial",
    "Boo.C42_violated",
    "Boo.C42_empty_panics"
   ],
   "note": "The code violates it for every data set: the last row is lost, because LibSVM() does not end with a newline. Everything else is read back; with a final newline everything is. Finite numbers."
  },
  {
   "property": "C43",
   "status": "proved",
   "theorems": [
    "Boo.C43_round_trip"
   ],
   "note": "every table, every number (also NaN, infinities), every separator that is not in numbers; encoding/csv modelled"
  },
  {
   "property": "C44",
   "status": "partial",
   "theorems": [
    "Boo.C44_csv_partial",
    "Boo.C44_libsvm_partial",
    "Boo.C44_violated",
    "Boo.C44_names_violated",
    "Boo.C44_names_partial"
   ],
   "note": "The code violates it: a blank line panics in the libSVM reader. The CSV reader never panics."
  },
  {
   "property": "C45",
   "status": "proved",
   "theorems": [
    "Boo.C45_libsvm",
    "Boo.C45_csv",
    "Boo.C45_csv_exact",
    "Boo.C45_csv_grammar",
    "Boo.C45_csv_unique",
    "Boo.C45_libsvm_exact",
    "Boo.C45_libsvm_grammar",
    "Boo.C45_int"
   ],
   "note": "every text"
  },
  {
   "property": "C46",
   "status": "proved",
   "theorems": [
    "Boo.C46_matrix",
    "Boo.C46_trained"
   ],
   "note": "Any arithmetic. The hypotheses are those of Usable: all rows can be predicted, distinct model labels (always so for trained models), not more labels than rows (otherwise Matrix panics, example beside the theorem)."
  },
  {
   "property": "C47",
   "status": "proved",
   "theorems": [
    "Boo.C47_trace"
   ],
   "note": "Any arithmetic; both code paths are modelled separately."
  },
  {
   "property": "C48",
   "status": "proved",
   "theorems": [
    "Boo.C48_topN",
    "Boo.C48_negative"
   ],
   "note": "For every sort.Sort implementation and after every history of calls. Indexes into Labels are returned, not labels as the doc comment says. A negative N panics."
  },
  {
   "property": "C49",
   "status": "partial",
   "theorems": [
    "Boo.C49_violated",
    "Boo.C49_copy_partial",
    "Boo.C49_perLabel"
   ],
   "note": "False without docopy (the default): the returned slices are the buffers of the receiver. Proved with docopy and for TopNPerLabel, for all histories."
  },
  {
   "property": "C50",
   "status": "partial",
   "theorems": [
    "Boo.C50_violated",
    "Boo.C50_read_partial",
    "Boo.C50_simple"
   ],
   "note": "False: a last line without newline is dropped, read errors are not reported (shadowed variable). Proved for newline-terminated files."
  },
  {
   "property": "C51",
   "status": "partial",
   "theorems": [
    "Boo.C51_best_partial",
    "Boo.C51_best_divisible",
    "Boo.C51_grid",
    "Boo.C51_violated",
    "Boo.C51_zero_cpus",
    "Boo.C51_default_panics",
    "Boo.C51_error",
    "Boo.C51_no_accuracies"
   ],
   "note": "False: the last N mod NCPUs points are never looked at. Proved when NCPUs divides the number of points (any arithmetic with an ordered comparison, any cross-validation; and for the program in binary64)."
  },
  {
   "property": "C52",
   "status": "partial",
   "theorems": [
    "Boo.C52_schedules",
    "Boo.C52_messages",
    "Boo.C52_ends",
    "Boo.C52_collected",
    "Boo.C52_error_leak"
   ],
   "note": "All interleavings of caller and workers of the whole search: termination and same result as the sequential program. False part: after an error, or for the last N mod NCPUs points, workers stay blocked for ever (C52_error_leak, C52_collected)."
  },
  {
   "property": "C53",
   "status": "partial",
   "theorems": [
    "Boo.C53_grid_exact",
    "Boo.C53_int_loop",
    "Boo.C53_float_loop_exact",
    "Boo.C53_points",
    "Boo.C53_bounds_binary64",
    "Boo.C53_float_loop_binary64_partial",
    "Boo.C53_binary64_violated",
    "Boo.C53_int64",
    "Boo.C53_violated_int64",
    "Boo.C53_int_diverges",
    "Boo.C53_float_diverges",
    "Boo.C53_tiny_step",
    "Boo.C53_grid_diverges",
    "Boo.C53_size",
    "Boo.C53_default_sizes"
   ],
   "note": "Exact arithmetic: full. Binary64: bounds for all values, exact coverage on a binary grid; false in general (0.1 to 0.3 by 0.1 misses 0.3, tiny steps do not end). The ints of the model do not overflow; with int64 the loops are the same if the limit is a step below the largest int, and never end if it is the largest int."
  },
  {
   "property": "C54",
   "status": "partial",
   "theorems": [
    "Boo.C54_cross_validation_partial",
    "Boo.C54_error",
    "Boo.C54_when_error",
    "Boo.C54_range",
    "Boo.C54_mean",
    "Boo.C54_range_binary64",
    "Boo.C54_violated"
   ],
   "note": "False when some fold trains a model without rounds: it counts as accuracy 0. Otherwise proved, exact and binary64 range."
  },
  {
   "property": "C55",
   "status": "partial",
   "theorems": [
    "Boo.C55_exact",
    "Boo.C55_partial",
    "Boo.C55_violated_race",
    "Boo.C55_violated_weight",
    "Boo.C55_violated_nan"
   ],
   "note": "All interleavings of the caller and the six goroutines, all accuracies. Proved for valid options in a box of valid options (exact arithmetic) and, for any arithmetic, that no option is outside for Go's comparisons. False for regular boosting with central differences (data race on the options sent), for boxes that end below child weight 1 without central differences, and when gamma or lambda is 0 (NaN passes the check)."
  },
  {
   "property": "C56",
   "status": "proved",
   "theorems": [
    "Boo.C56_accuracies"
   ],
   "note": "any arithmetic with IEEE comparison laws, every sequence of accuracies, gradient steps and random numbers; both searches"
  },
  {
   "property": "C57",
   "status": "partial",
   "theorems": [
    "Boo.C57_violated",
    "Boo.C57_partial",
    "Boo.C57_accuracy_measured"
   ],
   "note": "False: the recorded options are changed in place by later steps (aliasing); witness with steps that GradStep can make. Proved: the accuracy was measured; without steps the options are those it was measured for."
  },
  {
   "property": "C58",
   "status": "partial",
   "theorems": [
    "Boo.C58_violated",
    "Boo.C58_partial",
    "Boo.C58_fixed_fields",
    "Boo.C58_depth_partial"
   ],
   "note": "False: perturbations are not checked against the box and are made on the recorded options. Proved without steps in full (exact arithmetic), and for any number of steps for the depth and the minimum child weight."
  },
  {
   "property": "C59",
   "status": "partial",
   "theorems": [
    "Boo.C59_exact",
    "Boo.C59_partial",
    "Boo.C59_one_send_partial",
    "Boo.C59_returns",
    "Boo.C59_loops_exact",
    "Boo.C59_loops_default",
    "Boo.C59_tiny_step",
    "Boo.C59_violated_errors",
    "Boo.C59_violated_regular"
   ],
   "note": "All interleavings. False when cross-validations fail and for regular boosting with central differences: six goroutines stay blocked. In binary64 the step loop does not end for a denormal step."
  },
  {
   "property": "C60",
   "status": "partial",
   "theorems": [
    "Boo.C60_violated",
    "Boo.C60_violated_central",
    "Boo.C60_starts",
    "Boo.C60_sent",
    "Boo.C60_moves_partial"
   ],
   "note": "False for regular boosting: MinSample 0 fails the check of every try, so no step ever moves a parameter. Proved for XGB options."
  },
  {
   "property": "C61",
   "status": "partial",
   "theorems": [
    "Boo.C61_violated",
    "Boo.C61_partial",
    "Boo.C61_update_partial",
    "Boo.C61_update_rounds_partial"
   ],
   "note": "False: the difference is multiplied by h/2 instead of divided by 2h. Proved: the sign is right, forward differences are right, the cross-validations are made at x+h and x-h with h = DeltaFraction*x, and the parameter moves by slope*step*Step*0.8^j for the first j <= 10 that stays in the box."
  },
  {
   "property": "C62",
   "status": "proved",
   "theorems": [
    "Boo.C62_int",
    "Boo.C62_midpoints",
    "Boo.C62_starts",
    "Boo.C62_mid_binary64",
    "Boo.C62_binary64_violated"
   ],
   "note": "ints in full; floats in exact arithmetic; in binary64 for bounds up to 2^1022, above that the sum can overflow"
  },
  {
   "property": "C63",
   "status": "proved",
   "theorems": [
    "Boo.C63_fuzz",
    "Boo.C63_options",
    "Boo.C63_draws"
   ],
   "note": "exact arithmetic; the number of rounds is truncated, so its bound is one larger"
  },
  {
   "property": "C64",
   "status": "partial",
   "theorems": [
    "Boo.C64_computes_partial",
    "Boo.C64_violated"
   ],
   "note": "the code computes log(p*(s-p)); negation with witness and exact characterisation"
  },
  {
   "property": "C65",
   "status": "partial",
   "theorems": [
    "Boo.C65_violated",
    "Boo.C65_violated_panic",
    "Boo.C65_fresh_partial",
    "Boo.C65_same_size_partial"
   ],
   "note": "The code violates it: NewTree stores the index list in the caller's options."
  },
  {
   "property": "C66",
   "status": "partial",
   "theorems": [
    "Boo.C66_violated",
    "Boo.C66_print_partial"
   ],
   "note": "The code violates it for a non-nil list of names that is too short."
  },
  {
   "property": "C67",
   "status": "proved",
   "theorems": [
    "Boo.C67_print",
    "Boo.C67_small"
   ],
   "note": "For N >= 1; a smaller N panics."
  },
  {
   "property": "C68",
   "status": "proved",
   "theorems": [
    "Boo.C68_clone",
    "Boo.C68_search"
   ],
   "note": "all fields"
  },
  {
   "property": "C69",
   "status": "partial",
   "theorems": [
    "Boo.C69_violated",
    "Boo.C69_violated_general",
    "Boo.C69_five_partial"
   ],
   "note": "False: five folds are hard-coded in both searches, whatever is asked for. The general theorem says that the cross-validations with other numbers of folds make no difference beyond the gradient steps."
  },
  {
   "property": "C70",
   "status": "proved",
   "theorems": [
    "Boo.C70_fitted"
   ],
   "note": "any arithmetic; models in which every round has a tree per class (without early stopping; with it, C27 says what happens)"
  },
  {
   "property": "C71",
   "status": "partial",
   "theorems": [
    "Boo.C71_real_partial",
    "Boo.C71_violated_one_label",
    "Boo.C71_violated_binary64",
    "Boo.C71_before_binary64"
   ],
   "note": "Proved in exact real arithmetic for at least two labels. False for one label with MSELoss (NaN) and, in binary64, when regular boosting saturates the probabilities: NaN after 19 rounds with learning rate 1 (numbers after 18)."
  },
  {
   "property": "C72",
   "status": "proved",
   "theorems": [
    "Boo.C72_metadata",
    "Boo.C72_importance_order",
    "Boo.C72_default_kinds"
   ],
   "note": "any arithmetic"
  },
  {
   "property": "C73",
   "status": "partial",
   "theorems": [
    "Boo.C73_sort_partial",
    "Boo.C73_sort_model_partial",
    "Boo.C73_rescale_partial",
    "Boo.C73_rescale_model_partial",
    "Boo.C73_monotone_partial",
    "Boo.C73_monotone_model_partial",
    "Boo.C73_rows_xgb_partial",
    "Boo.C73_rows_partial",
    "Boo.C73_sort_violated_binary64",
    "Boo.C73_rows_violated_binary64",
    "Boo.C73_rescale_violated_binary64"
   ],
   "note": "Proved in exact arithmetic over any ordered field, with arbitrary targets (also infinite or NaN). False in binary64: rounded sums depend on the order of tied rows and of rows, and midpoints of large features overflow; what float64 does keep under changes of units is in C133."
  },
  {
   "property": "C74",
   "status": "partial",
   "theorems": [
    "Boo.C74_model_partial",
    "Boo.C74_predictions_partial",
    "Boo.C74_violated_binary64"
   ],
   "note": "Proved in exact real arithmetic, infinities and NaN included; false in binary64, where BaseScore 1000 overflows exp and gives NaN predictions."
  },
  {
   "property": "C75",
   "status": "proved",
   "theorems": [
    "Boo.C75_draws",
    "Boo.C75_deterministic",
    "Boo.C75_regular"
   ],
   "note": "any arithmetic; the random source is a stream of draws"
  },
  {
   "property": "C76",
   "status": "proved",
   "theorems": [
    "Boo.C76_rename",
    "Boo.C76_predictions",
    "Boo.C76_accuracy"
   ],
   "note": "any arithmetic"
  },
  {
   "property": "C77",
   "status": "proved",
   "theorems": [
    "Boo.C77_prefix"
   ],
   "note": "any arithmetic"
  },
  {
   "property": "C78",
   "status": "proved",
   "theorems": [
    "Boo.C78_verbose"
   ],
   "note": "any arithmetic; as many labels as rows, losses that return on equally long vectors (both losses of the package do)"
  },
  {
   "property": "C79",
   "status": "partial",
   "theorems": [
    "Boo.C79_predict_partial",
    "Boo.C79_accuracy_partial",
    "Boo.C79_violated"
   ],
   "note": "Any arithmetic. False for models without rounds (C22 says when there are none): every prediction panics."
  },
  {
   "property": "C80",
   "status": "proved",
   "theorems": [
    "Boo.C80_cut",
    "Boo.C80_predict"
   ],
   "note": "any arithmetic"
  },
  {
   "property": "C81",
   "status": "proved",
   "theorems": [
    "Boo.C81_regular",
    "Boo.C81_xgb"
   ],
   "note": "exact arithmetic over any ordered field, as the property says"
  },
  {
   "property": "C82",
   "status": "partial",
   "theorems": [
    "Boo.C82_prune_partial",
    "Boo.C82_violated_binary64"
   ],
   "note": "Proved in exact arithmetic, any data (also infinite or NaN). False in binary64: subtracting Gamma/2 rounds different gains to the same number, and another split wins."
  },
  {
   "property": "C83",
   "status": "proved",
   "theorems": [
    "Boo.C83_tree",
    "Boo.C83_model",
    "Boo.C83_nan_column_panics"
   ],
   "note": "any arithmetic with the order laws; a column of NaN is excluded, and makes NewTree panic"
  },
  {
   "property": "C84",
   "status": "partial",
   "theorems": [
    "Boo.C84_xgb_partial",
    "Boo.C84_regular_partial",
    "Boo.C84_violated_binary64"
   ],
   "note": "Proved in exact arithmetic over any ordered field (regular: finite targets; xgboost: any). False in binary64: adding 10^8 to the targets loses digits, and the tree splits on another feature."
  },
  {
   "property": "C85",
   "status": "partial",
   "theorems": [
    "Boo.C85_file_violated",
    "Boo.C85_repeated_violated"
   ],
   "note": "False: every time a round is lost. Proved: saving again succeeds and gives a beginning of the first file, the same file only without rounds; after k times the predictions are those without the last k rounds, and with none left every prediction panics"
  },
  {
   "property": "C86",
   "status": "proved",
   "theorems": [
    "Boo.C86_tree",
    "Boo.C86_model"
   ],
   "note": "any arithmetic, any tree or model"
  },
  {
   "property": "C87",
   "status": "proved",
   "theorems": [
    "Boo.C87_prefix",
    "Boo.C87_unused"
   ],
   "note": "any arithmetic"
  },
  {
   "property": "C88",
   "status": "partial",
   "theorems": [
    "Boo.C88_readable",
    "Boo.C88_follow_partial",
    "Boo.C88_away_partial",
    "Boo.C88_violated"
   ],
   "note": "Proved for rows more than 1/2000 away from the thresholds; false at a threshold: Print says <, Predict uses <="
  },
  {
   "property": "C89",
   "status": "partial",
   "theorems": [
    "Boo.C89_grid",
    "Boo.C89_grid_point",
    "Boo.C89_hybrid_partial",
    "Boo.C89_violated_gradient",
    "Boo.C89_violated_hybrid"
   ],
   "note": "holds for Grid; false for EarlyStop in GradientGrid (never set: 10 or 0 whatever is asked) and HybridGradientGrid (Clone drops it: the value asked for or 0); XGB is kept by all"
  },
  {
   "property": "C90",
   "status": "proved",
   "theorems": [
    "Boo.C90_regular",
    "Boo.C90_treeMethod"
   ],
   "note": "any arithmetic"
  },
  {
   "property": "C91",
   "status": "partial",
   "theorems": [
    "Boo.C91_grid_same",
    "Boo.C91_grid",
    "Boo.C91_grid_records",
    "Boo.C91_gradient_records",
    "Boo.C91_grid_off",
    "Boo.C91_grid_error",
    "Boo.C91_options_kept",
    "Boo.C91_gradient",
    "Boo.C91_gradient_off",
    "Boo.C91_violated_read_back",
    "Boo.C91_violated_gradient"
   ],
   "note": "Grid writes the model of the returned options, the gradient searches that of some measured options with the returned accuracy; false otherwise: the file read back lacks the last round (C17), and the gradient searches return other options than those of the file (C57)"
  },
  {
   "property": "C92",
   "status": "proved",
   "theorems": [
    "Boo.C92_feats",
    "Boo.C92_importance",
    "Boo.C92_data",
    "Boo.C92_options",
    "Boo.C92_matrix",
    "Boo.C92_matrix_injective",
    "Boo.C92_node"
   ],
   "note": "the text of a float is any text without blanks"
  },
  {
   "property": "C93",
   "status": "proved",
   "theorems": [
    "Boo.C93_regular_split",
    "Boo.C93_regular_leaf",
    "Boo.C93_xgb_split",
    "Boo.C93_xgb_leaf",
    "Boo.C93_exact_violated"
   ],
   "note": "binary64, for every order of the additions of floats.Sum. The bound cannot be dropped: C93_exact_violated"
  },
  {
   "property": "C94",
   "status": "proved",
   "theorems": [
    "Boo.C94_mean",
    "Boo.C94_weight",
    "Boo.C94_exact_violated",
    "Boo.sum_order_exact",
    "Boo.sum_order_binary64"
   ],
   "note": "binary64, for every order of the additions of floats.Sum. The bound cannot be dropped: C94_exact_violated (the mean of three 0.1 is above 0.1)"
  },
  {
   "property": "C95",
   "status": "partial",
   "theorems": [
    "Boo.C95_same_class_order_partial",
    "Boo.C95_two_classes_partial",
    "Boo.C95_violated"
   ],
   "note": "Proved for permutations that keep the order in which the labels are met first, and, in real arithmetic, for every permutation of data with two labels; false otherwise: the trees of a round are fitted class after class, with the probabilities renewed in between"
  },
  {
   "property": "C96",
   "status": "proved",
   "theorems": [
    "Boo.C96_softmax",
    "Boo.C96_model",
    "Boo.expFloat_exists"
   ],
   "note": "binary64; math.Exp is any function with a relative error of at most 2^-52 on [-700, 700] (expFloat_exists: there is one); sums as left folds. Beyond that range: C24_violated_overflow"
  },
  {
   "property": "C97",
   "status": "proved",
   "theorems": [
    "Boo.C97_scores",
    "Boo.C97_probabilities"
   ],
   "note": "binary64; exponential as in C96"
  },
  {
   "property": "C98",
   "status": "proved",
   "theorems": [
    "Boo.C98_loss",
    "Boo.C98_loss_zero",
    "Boo.C98_underflow",
    "Boo.C98_gradients",
    "Boo.C98_hessian",
    "Boo.C98_normalization"
   ],
   "note": "binary64. C98_underflow: the loss can be 0 although the vectors differ"
  },
  {
   "property": "C99",
   "status": "proved",
   "theorems": [
    "Boo.C99_sqerr",
    "Boo.C99_mse",
    "Boo.C99_default",
    "Boo.C99_default_options"
   ],
   "note": "binary64; exponential as in C96. For MSELoss without Lambda the claim is false: C71_violated_binary64"
  }
 ]
}