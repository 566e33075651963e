{
 "claims": [
  {
   "property": "C01",
   "status": "partial",
   "theorems": [
    "DRec.C01_select_exact",
    "DRec.C01_select_partial",
    "DRec.C01_incomparable_raises",
    "DRec.C01_fails_with_ids"
   ],
   "note": "Any written conjunction on any dataset, except orderings on text and float user/item columns after id assignment, where the claim is false (witness)."
  },
  {
   "property": "C02",
   "status": "proved",
   "theorems": [
    "DRec.C02_round_trip",
    "DRec.C02_value_round_trip",
    "DRec.C02_operators_distinct",
    "DRec.C02_rejects",
    "DRec.C02_accepts",
    "DRec.C02_numbers"
   ],
   "note": "Text of integers, decimals and quoted strings without blanks, commas, quotes."
  },
  {
   "property": "C03",
   "status": "partial",
   "theorems": [
    "DRec.C03_compose",
    "DRec.C03_joined_ok",
    "DRec.C03_db_partial"
   ],
   "note": "In-memory backend: arbitrary query texts. Database backend: at every point of an admissible history, for admissible queries, calls that return (all do on datasets with the table columns)."
  },
  {
   "property": "C04",
   "status": "partial",
   "theorems": [
    "DRec.C04_ids_do_not_change_filters_partial",
    "DRec.C04_ordering_changes",
    "DRec.C04_number_changes",
    "DRec.C04_float_column_changes",
    "DRec.C04_unknown_ordering_raises"
   ],
   "note": "Proved for integer id columns and for ==/!= with strings on text columns; false for orderings on text ids, numbers against text ids and float id columns (witnesses)."
  },
  {
   "property": "C05",
   "status": "partial",
   "theorems": [
    "DRec.C05_drop_keep",
    "DRec.C05_unknown_ids",
    "DRec.C05_db_partial"
   ],
   "note": "In-memory backend: all datasets and ids. Database backend: at every point of an admissible history, calls that return (all do on datasets with the table columns)."
  },
  {
   "property": "C06",
   "status": "proved",
   "theorems": [
    "DRec.C06_unique",
    "DRec.C06_idempotent"
   ],
   "note": ""
  },
  {
   "property": "C07",
   "status": "partial",
   "theorems": [
    "DRec.C07_memory_list",
    "DRec.C07_db_list_partial",
    "DRec.C07_same_partial",
    "DRec.C07_db_list_modified",
    "DRec.C07_rid_keeps_all",
    "DRec.C07_none_differs",
    "DRec.C07_second_call_differs"
   ],
   "note": "Both backends agree on explicit columns without rid, and the in-memory unique never changes a list. Full claim is false: unique() keeps duplicates in the database, and the database appends rid to the caller's list."
  },
  {
   "property": "C08",
   "status": "proved",
   "theorems": [
    "DRec.C08_readers_agree",
    "DRec.C08_exists_raises",
    "DRec.C08_max_min"
   ],
   "note": ""
  },
  {
   "property": "C09",
   "status": "proved",
   "theorems": [
    "DRec.C09_histories",
    "DRec.C09_copies_independent"
   ],
   "note": "Heap model with shared dataframes, column lists and mappings; every history."
  },
  {
   "property": "C10",
   "status": "proved",
   "theorems": [
    "DRec.C10_user_ids",
    "DRec.C10_item_ids",
    "DRec.C10_conversions_inverse",
    "DRec.C10_back_and_forth"
   ],
   "note": ""
  },
  {
   "property": "C100",
   "status": "partial",
   "theorems": [
    "DRec.Conc.C100_tasks_partial",
    "DRec.Conc.C100_finishes",
    "DRec.Conc.C100_fails_interleaving",
    "DRec.Conc.C100_one_by_one"
   ],
   "note": "Proved for every interleaving when the dataset has no filter of its own, or when the threads together stay below the limit of direct interactions that starts a reduction. For a filtered dataset at the limit, two threads suffice: one of them returns a record that is not in the dataset."
  },
  {
   "property": "C101",
   "status": "partial",
   "theorems": [
    "DRec.C101_seeded_valid",
    "DRec.C101_any_sequence_partial",
    "DRec.C101_seeded_first_user",
    "DRec.C101_fails_seeded",
    "DRec.C101_seeded_record",
    "DRec.C101_seeded_pair"
   ],
   "note": "Validity is proved for every seed, and what every word leads to. Every sequence is possible when the three random sources are independent. With a seed they are not: the word that decides for a record also chooses its user, so only users with small internal ids can come first."
  },
  {
   "property": "C102",
   "status": "partial",
   "theorems": [
    "DRec.Conc.C102_leave_k_out_partial",
    "DRec.Conc.C102_matrix_split_partial",
    "DRec.Conc.C102_random_split",
    "DRec.Conc.C102_returns_partial",
    "DRec.Conc.C102_matrix_returns_partial",
    "DRec.Conc.C102_fails_filtered",
    "DRec.Conc.C102_raises",
    "DRec.Conc.C102_raises_after_drops"
   ],
   "note": "Full claim for random_split. For leave_k_out and matrix_split: integer user ids and no reduction due while the tasks run; refuted for a filtered dataset (wrong test set) and for a large dataset that was narrowed before (AssertionError)."
  },
  {
   "property": "C103",
   "status": "partial",
   "theorems": [
    "DRec.C103_records_partial",
    "DRec.C103_history_partial",
    "DRec.C103_returns_partial",
    "DRec.C103_fails_mixed",
    "DRec.C103_fails_missing",
    "DRec.C103_fails_interaction",
    "DRec.C103_fails_blank",
    "DRec.C103_fails_truth",
    "DRec.C103_fails_na",
    "DRec.C103_types_memory",
    "DRec.C103_types_partial"
   ],
   "note": "Proved for files without quotes and blank lines whose columns are numbers throughout or texts (see PlainCsv); refuted for mixed columns, missing values, blank lines, truth values and NA tokens."
  },
  {
   "property": "C104",
   "status": "partial",
   "theorems": [
    "DRec.C104_indexes_partial",
    "DRec.C104_fails_file"
   ],
   "note": "Proved for histories on a csv import that do not open its database file a second time; refuted for every dataset opened from a .sqlite file: the first attempt drops the indexes and raises, further attempts raise because they are gone."
  },
  {
   "property": "C105",
   "status": "proved",
   "theorems": [
    "DRec.C105_precision",
    "DRec.C105_recall",
    "DRec.C105_fscore",
    "DRec.C105_hit_ratio",
    "DRec.C105_reciprocal_rank",
    "DRec.C105_average_precision",
    "DRec.C105_dcg",
    "DRec.C105_ndcg",
    "DRec.C105_dcg_sum",
    "DRec.C105_negative_relevancies"
   ],
   "note": "C105_dcg_sum says in addition which sum DCG is; C105_negative_relevancies shows that the condition on the sign for NDCG is needed."
  },
  {
   "property": "C106",
   "status": "proved",
   "theorems": [
    "DRec.C106_prefix",
    "DRec.C106_rank_all",
    "DRec.C106_rank_all_cdae",
    "DRec.C106_rank_all_caser",
    "DRec.C106_scores",
    "DRec.C106_scores_cdae"
   ],
   "note": "Prefix and full ranking for the three ranking methods of the package; scores for all models with point predictions (Caser has none)."
  },
  {
   "property": "C107",
   "status": "proved",
   "theorems": [
    "DRec.C107_user",
    "DRec.C107_ndcg",
    "DRec.C107_average_precision",
    "DRec.C107_recall",
    "DRec.C107_ndcg_reported",
    "DRec.C107_reciprocal_rank_fails"
   ],
   "note": "C107_reciprocal_rank_fails shows why the statement leaves reciprocal rank out (see C48)."
  },
  {
   "property": "C108",
   "status": "partial",
   "theorems": [
    "DRec.C108_console",
    "DRec.C108_nothing_lost",
    "DRec.C108_files_partial",
    "DRec.C108_fails",
    "DRec.C108_quiet",
    "DRec.C108_file_names"
   ],
   "note": "Console part and quiet models: proved for all histories. Log files: proved when no two recommenders of one class have a log file; otherwise false (C108_fails): the logger is shared by class and keeps the handlers of earlier recommenders."
  },
  {
   "property": "C109",
   "status": "partial",
   "theorems": [
    "DRec.Conc.C109_ranking_partial",
    "DRec.Conc.C109_recommendation_partial",
    "DRec.Conc.C109_returns_partial",
    "DRec.Conc.C109_fails",
    "DRec.Conc.C109_example",
    "DRec.Conc.exLarge_evaluated"
   ],
   "note": "Proved for integer users and items and numeric interactions, a threshold printed without exponent, and, for ranking, tables with less than 5000 records unless no negatives are generated. Without the last condition it is false: C109_fails (the third narrowing raises AssertionError, the user is dropped silently), with the concrete dataset of C109_example and exLarge_evaluated."
  },
  {
   "property": "C11",
   "status": "partial",
   "theorems": [
    "DRec.C11_out_of_range_partial",
    "DRec.C11_float_partial",
    "DRec.C11_float_is_truncated",
    "DRec.C11_number_in_text_column"
   ],
   "note": "A non-integral float argument is truncated on integer columns and returns the id of another user. C11_float_partial says which one: the nearest whole number towards zero."
  },
  {
   "property": "C110",
   "status": "partial",
   "theorems": [
    "DRec.C110_cosine",
    "DRec.C110_cosine_cf",
    "DRec.C110_adjusted",
    "DRec.C110_pearson",
    "DRec.C110_msd",
    "DRec.C110_jaccard",
    "DRec.C110_predict_partial",
    "DRec.C110_recommend_partial",
    "DRec.C110_fails_ties",
    "DRec.C110_fails_repeated"
   ],
   "note": "All metrics: proved in full. Predictions: proved for datasets with one record per user and item when k neighbours suffice for everybody or no two candidates have the same similarity; recommendations under the same conditions, for user neighbourhoods without averages. Otherwise false: ties are broken by internal id, which follows the row order (C110_fails_ties), and of repeated pairs the first record is used (C110_fails_repeated)."
  },
  {
   "property": "C111",
   "status": "proved",
   "theorems": [
    "DRec.C111_bounds",
    "DRec.C111_returns",
    "DRec.C111_exact",
    "DRec.C111_zero",
    "DRec.C111_knn",
    "DRec.C111_database"
   ],
   "note": "Rational predictions; rounding to four places included (reported values are compared with the rounded bound). Database part for histories admissible in C18."
  },
  {
   "property": "C112",
   "status": "proved",
   "theorems": [
    "DRec.C112_mirror"
   ],
   "note": "For every similarity metric, any ties and repeated records; ids as assigned by first appearance. Only which exception is raised may differ when both user and item are unknown."
  },
  {
   "property": "C113",
   "status": "partial",
   "theorems": [
    "DRec.Dl.C113_first",
    "DRec.Dl.C113_frozen",
    "DRec.Dl.C113_clean",
    "DRec.Dl.C113_request_fails",
    "DRec.Dl.C113_names",
    "DRec.Dl.C113_died_partial",
    "DRec.Dl.C113_plain_partial",
    "DRec.Dl.C113_bad_partial",
    "DRec.Dl.C113_page_partial",
    "DRec.Dl.C113_fails_archive",
    "DRec.Dl.C113_fails_plain",
    "DRec.Dl.C113_fails_answer",
    "DRec.Dl.C113_full"
   ],
   "note": "The code only checks that the folder exists (is_stored). Proved: uninterrupted downloads, deaths before the folder is made and after the file is moved, exactly what later calls do otherwise. Full claim refuted: after a death in between every later call raises FileNotFoundError, or for bx returns a truncated dataset; the status of the response is not checked."
  },
  {
   "property": "C114",
   "status": "partial",
   "theorems": [
    "DRec.C114_nonneg",
    "DRec.C114_least",
    "DRec.C114_closer",
    "DRec.C114_mse",
    "DRec.C114_dmf_partial",
    "DRec.C114_sampled_partial",
    "DRec.C114_caser",
    "DRec.C114_reg",
    "DRec.C114_raw_targets",
    "DRec.C114_fails_raw",
    "DRec.C114_fails_cdae"
   ],
   "note": "Proved for Caser and for DMF with use_nce, at least two users and interactions whose range contains 0 (C65, C83 say what happens otherwise). Refuted without use_nce (raw interactions as targets of a cross-entropy: the loss only grows smaller towards 1 and can be negative) and for CDAE (C85)."
  },
  {
   "property": "C115",
   "status": "partial",
   "theorems": [
    "DRec.C115_recommended",
    "DRec.C115_found_partial",
    "DRec.C115_leave_k_out",
    "DRec.C115_matrix_split",
    "DRec.C115_no_task_raises",
    "DRec.C115_user_partial",
    "DRec.C115_reported_partial",
    "DRec.C115_fails_cold",
    "DRec.C115_fails_repeated"
   ],
   "note": "Proved for integer ids, one record per user and item and held-out items that occur in the train set, over all split and evaluation executions. Refuted for items that only held-out records are about (unknown to the recommender) and, with novelty, for users with two records about an item."
  },
  {
   "property": "C116",
   "status": "proved",
   "theorems": [
    "DRec.Conc.C116_ready",
    "DRec.Conc.C116_fit",
    "DRec.Conc.C116_answers",
    "DRec.Conc.C116_returns",
    "DRec.Conc.C116_ranking_evaluation",
    "DRec.Conc.C116_recommendation_evaluation",
    "DRec.Conc.C116_base_evaluation",
    "DRec.Conc.C116_evaluation_returns"
   ],
   "note": "The recommenders are programs of dataset operations; every interleaving of their steps gives the results of the in-memory model (C62 to C64). Similarities are computed from the answers by the functions of the in-memory model."
  },
  {
   "property": "C117",
   "status": "partial",
   "theorems": [
    "DRec.C117_user",
    "DRec.C117_records",
    "DRec.C117_item_partial",
    "DRec.C117_item_fallback",
    "DRec.C117_item_fails",
    "DRec.C117_apply_fails"
   ],
   "note": "User vectors and records: proved for every history. Item vectors: right while memory suffices; refuted after memory has run out (the fallback fills position iid with the sum of the item's interactions and raises when iid is not below the number of users); apply raises although it has changed the records."
  },
  {
   "property": "C118",
   "status": "proved",
   "theorems": [
    "DRec.C118_rank",
    "DRec.C118_recommend",
    "DRec.C118_ranking_evaluation",
    "DRec.C118_recommendation_evaluation",
    "DRec.C118_increasing"
   ],
   "note": ""
  },
  {
   "property": "C119",
   "status": "proved",
   "theorems": [
    "DRec.C119_ids",
    "DRec.C119_predict",
    "DRec.C119_predict_knn",
    "DRec.C119_rank",
    "DRec.C119_recommend",
    "DRec.C119_vectors"
   ],
   "note": "Ids as assigned by assign_internal_ids. The vectors under the conditions of C15 (at least two users or user vectors only)."
  },
  {
   "property": "C12",
   "status": "proved",
   "theorems": [
    "DRec.C12_ids_survive_filtering",
    "DRec.C12_reassign",
    "DRec.C12_remove_restores"
   ],
   "note": ""
  },
  {
   "property": "C120",
   "status": "partial",
   "theorems": [
    "DRec.C120_name_partial",
    "DRec.C120_distinct_partial",
    "DRec.C120_history_partial",
    "DRec.C120_refused",
    "DRec.C120_unusable",
    "DRec.C120_small_fails",
    "DRec.C120_tiny_fails",
    "DRec.C120_repeated_fails",
    "DRec.C120_apply_fails"
   ],
   "note": "Proved for different random numbers from about 0.0001 on (900719925475/2^53), for any histories of reductions and applies. Refuted for every smaller one (scientific notation), for repeated random numbers (random.seed called again), and for apply, which changes the column types before it fails."
  },
  {
   "property": "C121",
   "status": "partial",
   "theorems": [
    "DRec.C121_nearest",
    "DRec.C121_share_partial",
    "DRec.C121_exact",
    "DRec.C121_written_partial",
    "DRec.C121_ratio_fails",
    "DRec.C121_third_fails",
    "DRec.C121_split_fails"
   ],
   "note": "Proved up to one unit, and exactly when the product needs no rounding. Refuted with concrete ratios: 0.7 of 90 records are 62, 0.29 of 100 are 28. Exponents are unbounded (no overflow or subnormal numbers)."
  },
  {
   "property": "C122",
   "status": "partial",
   "theorems": [
    "DRec.C122_ranking_every_run",
    "DRec.C122_recommendation_every_run",
    "DRec.C122_every_order",
    "DRec.C122_close_partial",
    "DRec.C122_order_fails"
   ],
   "note": "Every run adds the users up in some order and every order occurs in some run. Proved: at most one unit in the fourth decimal off, and the same double unless the mean is within a relative (n+1)/2^52 of a rounding boundary. Refuted: four users, Recall, 0.1938 or 0.1937. Metric values are arbitrary numbers that are not negative; distinct k; as many workers as users (the witness has four users, the default number of workers is four)."
  },
  {
   "property": "C123",
   "status": "partial",
   "theorems": [
    "DRec.C123_history_partial",
    "DRec.C123_create_partial",
    "DRec.C123_injection",
    "DRec.C123_quotes_fail",
    "DRec.C123_columns_fail",
    "DRec.C123_order"
   ],
   "note": "Proved for tables and columns with plain names that differ in more than case, and texts without double quotes, for the grammar of the statements the code builds, lexer included. Refuted: the query user == 'x\"OR\"1\"=\"1' selects every record; the query user == 'x\"y\"z' raises; a column called index, or columns that differ in case only, make CREATE TABLE fail. Which word is a number, a name or reserved is taken from the SQLite documentation."
  },
  {
   "property": "C124",
   "status": "partial",
   "theorems": [
    "DRec.C124_read_partial",
    "DRec.C124_shrink_partial",
    "DRec.C124_split_partial",
    "DRec.C124_insert_partial",
    "DRec.C124_key",
    "DRec.C124_ids_partial",
    "DRec.C124_lookup_partial",
    "DRec.C124_update_partial",
    "DRec.C124_columns_fail"
   ],
   "note": "Proved for tables and columns with plain names that differ in more than case and texts without double quotes, as in C123, for the statements as texts, lexer included, and against Model/Db (World.look, World.shrink, World.split, numberBy). Refuted: max and apply on a column called order of an existing database file raise. Missing: conversions of values to column types are not part of these statements (they are in stored and idArg); the indexes."
  },
  {
   "property": "C125",
   "status": "partial",
   "theorems": [
    "DRec.Conc.C125_starts",
    "DRec.Conc.C125_samples_partial",
    "DRec.Conc.C125_reaches",
    "DRec.Conc.C125_leaves_data",
    "DRec.Conc.C125_no_positive",
    "DRec.Conc.C125_after_raise",
    "DRec.Conc.C125_fails_changed"
   ],
   "note": "For samplers whose datasets are not changed in place and datasets with one record per pair. False otherwise: after the dataset is filtered in place the sampler still gives removed records. When no record reaches the threshold the first positive sample raises and each later one is a triple of nulls. A generator that raised stays finished (C125_after_raise)."
  },
  {
   "property": "C126",
   "status": "proved",
   "theorems": [
    "DRec.Conc.C126_samples",
    "DRec.Conc.C126_training",
    "DRec.Conc.C126_answers",
    "DRec.Conc.C126_evaluation",
    "DRec.Conc.C126_returns"
   ],
   "note": "The sampler and Caser are programs of dataset operations; every interleaving gives the results of the in-memory models (C69, C70, C84, C86, C88). The network is any function of the user and the sequence of items, for recommendation_evaluation one that scores every item."
  },
  {
   "property": "C127",
   "status": "proved",
   "theorems": [
    "DRec.Conc.C127_vectors",
    "DRec.Conc.C127_training",
    "DRec.Conc.C127_answers",
    "DRec.Conc.C127_dictionaries",
    "DRec.Conc.C127_evaluation",
    "DRec.Conc.C127_evaluation_dictionaries",
    "DRec.Conc.C127_returns",
    "DRec.Conc.C127_dictionaries_return",
    "DRec.Conc.C128_right_partial"
   ],
   "note": "Training vectors, answers and evaluations with and without the dictionaries of computed vectors (with them: right if there are no more users and items than the limits, as the claim says; else right or KeyError). C128_right_partial gives the vectors of a batch with dictionaries. The networks are arbitrary functions. Memory gives the vector of the first request (later ones: C22, C117)."
  },
  {
   "property": "C128",
   "status": "partial",
   "theorems": [
    "DRec.Conc.C128_right_partial",
    "DRec.Conc.C128_right_or_missing",
    "DRec.Conc.C128_refuted",
    "DRec.Conc.C128_returns",
    "DRec.Conc.C128_memory_partial",
    "DRec.Conc.C128_memory_alone",
    "DRec.Conc.C128_memory_returns",
    "DRec.Conc.C128_memory_refuted",
    "DRec.Conc.C128_memory_single",
    "DRec.Conc.C128_memory_oom"
   ],
   "note": "False in general. Database: right if memory suffices and there are no more users and items than the limits of the dictionaries; otherwise right or KeyError, and the KeyError is reachable. Memory: right for two or more users and enough memory, except that an item vector asked for while the first request builds the matrix raises TypeError; wrong vectors with one user, and when memory runs out in another thread."
  },
  {
   "property": "C129",
   "status": "partial",
   "theorems": [
    "DRec.C129_neighbours",
    "DRec.C129_exact",
    "DRec.C129_range",
    "DRec.C129_jaccard",
    "DRec.C129_msd",
    "DRec.C129_msd_close",
    "DRec.C129_cosine_close",
    "DRec.C129_pearson_close",
    "DRec.C129_stored",
    "DRec.C129_cosine_partial",
    "DRec.C129_cosine_refuted",
    "DRec.C129_range_partial",
    "DRec.C129_range_refuted",
    "DRec.C129_weighted_fails",
    "DRec.C129_order_fails",
    "DRec.C129_mean_fails"
   ],
   "note": "False in general. Exact neighbours with Jaccard similarity without shrinkage; with mean aggregation and interactions that are whole multiples of a power of two also exact predictions and rankings. MSD, cosine and Pearson similarities are present exactly when they are in exact arithmetic and close to the exact values (Pearson for values on a grid, cosine for values that are not negative); shrunk similarities are close to the exact ones. Any metric and aggregation: range up to a factor 1 \u00b1 (n+1)/2^50. Cosine and Pearson at most 1 + (n+1)/2^49. cosine_sim and adjusted_cosine_sim are in C137."
  },
  {
   "property": "C13",
   "status": "partial",
   "theorems": [
    "DRec.C13_membership_partial",
    "DRec.C13_stale_after_filter"
   ],
   "note": "True right after assigning ids; false after filtering (stale mapping)."
  },
  {
   "property": "C130",
   "status": "partial",
   "theorems": [
    "DRec.Prog.C130_results",
    "DRec.Prog.C130_returns_partial",
    "DRec.Prog.C130_one_begins_last",
    "DRec.Prog.C130_silent",
    "DRec.Prog.C130_single",
    "DRec.Prog.C130_same_size",
    "DRec.Prog.C130_stuck",
    "DRec.Prog.C130_hangs"
   ],
   "note": "Results: proved for every schedule. Returning: proved under fair schedules for silent calls, for the call that begins last and all calls with no more tasks than it (so for calls of the same size). Refuted otherwise: the module-level counter is reset by the later call, and an earlier one with more tasks waits for ever."
  },
  {
   "property": "C131",
   "status": "partial",
   "theorems": [
    "DRec.Pick.C131_round_trip",
    "DRec.Pick.C131_others",
    "DRec.Pick.C131_saves",
    "DRec.Pick.C131_again",
    "DRec.Pick.C131_file",
    "DRec.Pick.C131_recommenders_partial",
    "DRec.Pick.C131_answers",
    "DRec.Pick.C131_refit",
    "DRec.Pick.C131_loggers",
    "DRec.Pick.C131_refuted",
    "DRec.Pick.C131_lost"
   ],
   "note": "Copy, sharing, independence, saving again and answers of nearest neighbour recommenders: proved for all object graphs. Which recommenders can be saved: exactly characterised. Refuted: a fitted CDAE or DMF holds generators and cannot be saved, nor can anything fitted on a database; a save that fails destroys the earlier contents of the file."
  },
  {
   "property": "C132",
   "status": "partial",
   "theorems": [
    "DRec.C132_rounding",
    "DRec.C132_standardized",
    "DRec.C132_rescaled_partial",
    "DRec.C132_rescaled_refuted",
    "DRec.C132_learned",
    "DRec.C132_mean_loss",
    "DRec.C132_same_loss",
    "DRec.C132_mean_refuted"
   ],
   "note": "Standardising: proved for all ranges. Rescaling: within the range when its ends are whole multiples of a power of two; refuted otherwise, a prediction may exceed the largest interaction. Learned interactions come back up to 10 M / 2^24; the average loss is the mean up to six roundings per epoch, but not the mean rounded once. Exponents are unbounded in the model."
  },
  {
   "property": "C133",
   "status": "partial",
   "theorems": [
    "DRec.Miss.C133_select_partial",
    "DRec.Miss.C133_halves",
    "DRec.Miss.C133_select_refuted",
    "DRec.Miss.C133_range",
    "DRec.Miss.C133_vector",
    "DRec.Miss.C133_similarities",
    "DRec.Miss.C133_msd",
    "DRec.Miss.C133_neighbours",
    "DRec.Miss.C133_predictions",
    "DRec.Miss.C133_predictions_refuted",
    "DRec.Miss.C133_predictive",
    "DRec.Miss.C133_relevant",
    "DRec.Miss.C133_ndcg",
    "DRec.Miss.C133_reported",
    "DRec.Miss.C133_present"
   ],
   "note": "False in general. Holds for every selection but !=, for maxima, minima, the learned range and the relevant items. Refuted for != and for predictions. For the rest it is proved exactly what a missing interaction does: where vectors, cosine and Pearson similarities and predictions become NaN; one missing interaction removes all MSD similarities; predictive evaluation raises ValueError; NDCG and the mean over all users become NaN."
  },
  {
   "property": "C134",
   "status": "partial",
   "theorems": [
    "DRec.Cas.C134_network",
    "DRec.Cas.C134_unknown",
    "DRec.Cas.C134_alone",
    "DRec.Cas.C134_scores",
    "DRec.Cas.C134_training",
    "DRec.Cas.C134_unbiased",
    "DRec.Cas.C134_shape",
    "DRec.Cas.C134_vertical_partial",
    "DRec.Cas.C134_vertical_refuted"
   ],
   "note": "All but the vertical layer is proved. conv_v is one more horizontal filter of full height, without activation: it gives n_v numbers instead of n_v * d and mixes the latent dimensions; only with one latent dimension and no bias it is the layer of the paper."
  },
  {
   "property": "C135",
   "status": "proved",
   "theorems": [
    "DRec.Dm.C135_network",
    "DRec.Dm.C135_alone",
    "DRec.Dm.C135_raises",
    "DRec.Dm.C135_created",
    "DRec.Dm.C135_range",
    "DRec.Dm.C135_dead",
    "DRec.Dm.C135_silent",
    "DRec.Dm.C135_scale",
    "DRec.Dm.C135_scale_unnormalised",
    "DRec.Dm.C135_instance"
   ],
   "note": "C135_scale asks for an interaction of at least 1e-6 in absolute value, before and after scaling (tf.nn.l2_normalize bounds the length below); C135_scale_unnormalised shows that l2_norm_vectors is needed. C135_instance makes the theorems about open networks (C79, C80, C83) apply. Rounding left out."
  },
  {
   "property": "C136",
   "status": "partial",
   "theorems": [
    "DRec.Dm.C136_close",
    "DRec.Dm.C136_range",
    "DRec.Dm.C136_order",
    "DRec.Dm.C136_again",
    "DRec.Dm.C136_normalised",
    "DRec.Dm.C136_dead",
    "DRec.Dm.C136_prediction",
    "DRec.Dm.C136_outside_partial",
    "DRec.Dm.C136_range_refuted"
   ],
   "note": "All but the last clause is proved. Scores can exceed 1 and predictions the largest interaction (C136_range_refuted: representations (2, 3, 6), stars from 1 to 5), by no more than the error bound (C136_outside_partial). Exponents are unbounded; the representations are arbitrary (the layers are in C138)."
  },
  {
   "property": "C137",
   "status": "partial",
   "theorems": [
    "DRec.C137_cosine_close",
    "DRec.C137_range_partial",
    "DRec.C137_range_refuted",
    "DRec.C137_adjusted_partial",
    "DRec.C137_adjusted_fails",
    "DRec.C137_adjusted_refuted"
   ],
   "note": "Presence, error, symmetry and diagonal of the cosine are proved for all data. False: the range (1.0000000000000002 for three ones, C137_range_refuted; at most 1 + (n+1)/2^48, C137_range_partial) and the adjusted cosine of doubles (two users that rate everything 0.1 get about 1, C137_adjusted_fails); the adjusted cosine is proved for values that are whole multiples of a power of two (C137_adjusted_partial)."
  },
  {
   "property": "C138",
   "status": "proved",
   "theorems": [
    "DRec.Dm.C138_representation",
    "DRec.Dm.C138_score",
    "DRec.Dm.C138_order",
    "DRec.Dm.C138_prediction",
    "DRec.Dm.C138_positive",
    "DRec.Dm.C138_some",
    "DRec.Dm.C138_cancel_refuted"
   ],
   "note": "Sums in any order and grouping, with or without fused multiply-add; C138_some shows that scores exist for all vectors. C138_cancel_refuted is the witness of the last clause: a user with three interactions whose weights are 2^24, 1 and -2^24. Exponents are unbounded."
  },
  {
   "property": "C139",
   "status": "proved",
   "theorems": [
    "DRec.Cd.C139_input",
    "DRec.Cd.C139_close",
    "DRec.Cd.C139_order",
    "DRec.Cd.C139_again",
    "DRec.Cd.C139_range",
    "DRec.Cd.C139_saturated_refuted"
   ],
   "note": "Sums in any order and grouping, with or without fused multiply-add; the sigmoid may be wrong by four units in the last place. C139_range shows that scores exist. C139_saturated_refuted is the witness of the last clause. Exponents are unbounded."
  },
  {
   "property": "C14",
   "status": "proved",
   "theorems": [
    "DRec.C14_apply",
    "DRec.C14_returns",
    "DRec.C14_types",
    "DRec.C14_rejects_unchanged",
    "DRec.C14_empty",
    "DRec.C14_raises_after_change"
   ],
   "note": "In-memory backend. With a cached interaction matrix the call can raise after the records have changed."
  },
  {
   "property": "C140",
   "status": "proved",
   "theorems": [
    "DRec.Cas.C140_close",
    "DRec.Cas.C140_order",
    "DRec.Cas.C140_again",
    "DRec.Cas.C140_positive",
    "DRec.Cas.C140_some",
    "DRec.Cas.C140_order_refuted"
   ],
   "note": "Sums in any order and grouping, with or without fused multiply-add; convolutions add up the products that define them; no dropout (scores are computed outside training); activations relu (the default). C140_order_refuted is the witness of the last clause. Exponents are unbounded."
  },
  {
   "property": "C141",
   "status": "proved",
   "theorems": [
    "DRec.Metrics.C141_shares",
    "DRec.Metrics.C141_order",
    "DRec.Metrics.C141_ranks",
    "DRec.Metrics.C141_fscore",
    "DRec.Metrics.C141_fscore_default",
    "DRec.Metrics.C141_between_refuted",
    "DRec.Metrics.C141_average_precision",
    "DRec.Metrics.C141_ndcg",
    "DRec.Metrics.C141_ndcg_ideal",
    "DRec.Metrics.C141_ndcg_refuted",
    "DRec.Metrics.C141_errors",
    "DRec.Metrics.C141_mae_refuted",
    "DRec.Metrics.C141_rmse_refuted"
   ],
   "note": "log2 and 2**x of the C library are any functions within one unit of 2^-52; numpy adds up in any order and grouping. Relevancies of the strong DCG are 0 or at least 1 (integers); k is natural; beta is a float or an integer below 2^26. The _refuted theorems are the witnesses of the last clause. Exponents are unbounded."
  },
  {
   "property": "C142",
   "status": "partial",
   "theorems": [
    "DRec.Opt.C142_exact",
    "DRec.Opt.C142_same_partial",
    "DRec.Opt.C142_raises",
    "DRec.Opt.C142_countless",
    "DRec.Opt.C142_order",
    "DRec.Opt.C142_reused",
    "DRec.Opt.C142_adam_first",
    "DRec.Opt.C142_adam_refuted",
    "DRec.Opt.C142_models",
    "DRec.Opt.C142_models_refuted",
    "DRec.Opt.C142_order_refuted",
    "DRec.Opt.C142_twice_refuted",
    "DRec.Opt.C142_reused_refuted",
    "DRec.Opt.C142_refit_refuted"
   ],
   "note": "Holds for optimizers that do not count their calls (gradient descent, momentum) when no variable is registered twice, and for a single trainable. Refuted for Adam, the default: apply_gradients is called once per trainable, so in one epoch the trainables get different step numbers and all but the first move too little; C142_exact gives the numbers. Real arithmetic; gradients are any function of epoch and weights."
  },
  {
   "property": "C143",
   "status": "partial",
   "theorems": [
    "DRec.Trn.C143_cdae",
    "DRec.Trn.C143_cdae_scores",
    "DRec.Trn.C143_dmf",
    "DRec.Trn.C143_dmf_scores",
    "DRec.Trn.C143_caser",
    "DRec.Trn.C143_caser_forward",
    "DRec.Trn.C143_caser_scores",
    "DRec.Trn.C143_data",
    "DRec.Trn.C143_dmf_records",
    "DRec.Trn.C143_cdae_records",
    "DRec.Trn.C143_ranking_partial",
    "DRec.Trn.C143_fails_ties"
   ],
   "note": "Weights, errors and scores: proved in full, with real numbers, gradients as derivatives, and optimizers that treat every number of a variable alike. Rankings: proved when no two candidates have the same score; with equal scores the item with the larger internal id comes first, so that the order of the records decides (C143_fails_ties). The samples of both fits are assumed to be of the same users and items: the library's samplers draw numbers, so the same seed gives other samples after renumbering."
  },
  {
   "property": "C144",
   "status": "partial",
   "theorems": [
    "DRec.Trn.C144_still",
    "DRec.Trn.C144_cdae_user",
    "DRec.Trn.C144_cdae_item",
    "DRec.Trn.C144_cdae_kept",
    "DRec.Trn.C144_caser",
    "DRec.Trn.C144_caser_kept",
    "DRec.Trn.C144_dmf",
    "DRec.Trn.C144_adam_refuted"
   ],
   "note": "The parts on gradient descent and on training without regularization are proved in full (real numbers, gradients as derivatives). That the change is small for all optimizers when reg_rate is small is false: Adam, which fit uses by default, moves the vector of a user outside the batch by more than 3/4 of the learning rate in the first epoch, for every rate for which the derivatives are at least 1e-5 (C144_adam_refuted)."
  },
  {
   "property": "C145",
   "status": "proved",
   "theorems": [
    "DRec.Trn.C145_any",
    "DRec.Trn.C145_sgd",
    "DRec.Trn.C145_adam",
    "DRec.Trn.C145_momentum",
    "DRec.Trn.C145_smooth",
    "DRec.Trn.C145_stationary",
    "DRec.Trn.C145_dmf",
    "DRec.Trn.C145_caser",
    "DRec.Trn.C145_relu"
   ],
   "note": "Real numbers, gradients as derivatives. CDAE everywhere; DMF and Caser wherever no value computed for the batch is exactly at a bound of relu, pooling, l2_normalize, maximum or clipping; Caser on batches as `fit` makes them (known users and items, L items before, at least one after). The bound on the learning rate is needed: with one too large for the regularization the loss rises (theorem C145_large_refuted)."
  },
  {
   "property": "C146",
   "status": "partial",
   "theorems": [
    "DRec.Trn.C146_cdae",
    "DRec.Trn.C146_dmf",
    "DRec.Trn.C146_caser",
    "DRec.Trn.C146_cdae_stopped_partial",
    "DRec.Trn.C146_layers_stopped",
    "DRec.Trn.C146_caser_refuted",
    "DRec.Trn.C146_mixed_refuted"
   ],
   "note": "That only the registered variables count is proved for all three networks. That early stopping brings the predictions of the best epoch back is proved for CDAE (any rule that names an epoch from 1 to the last one run); for DMF and Caser it is false: the stored weights are the live variables, so the fitted model predicts as after the last epoch (C146_layers_stopped, witness C146_caser_refuted). A model with variables besides layers ends up with weights of two epochs (C146_mixed_refuted)."
  },
  {
   "property": "C147",
   "status": "partial",
   "theorems": [
    "DRec.C147_chosen",
    "DRec.Trn.C147_several",
    "DRec.Trn.C147_cdae_partial",
    "DRec.Trn.C147_layers_stopped"
   ],
   "note": "That the rule chooses the first validated epoch with the best score is proved for all models, metrics with different names and every interleaving of the evaluations; a metric named without cut-off must be evaluated at one cut-off (with several the last one decides, C147_several). That the fitted model scores as at that epoch is proved for CDAE without verbose; for DMF and Caser it is false: it scores as after the last epoch (C147_layers_stopped; witness for different predictions C146_caser_refuted). Metric values are exact numbers rounded to four decimals (for floating point see C122)."
  },
  {
   "property": "C148",
   "status": "partial",
   "theorems": [
    "DRec.Trn.C148_dmf",
    "DRec.Trn.C148_caser",
    "DRec.Trn.C148_gradient",
    "DRec.Trn.C148_cdae_order",
    "DRec.Trn.C148_dmf_order",
    "DRec.Trn.C148_caser_order",
    "DRec.Trn.C148_cdae_refuted"
   ],
   "note": "The order of the samples is irrelevant to training for all three networks. That every sample counts the same is proved for DMF and Caser (loss and, where they exist, derivatives) and refuted for CDAE, whose predictions meet the wanted values of all samples of the batch (C85)."
  },
  {
   "property": "C149",
   "status": "proved",
   "theorems": [
    "DRec.Trn.C149_cdae",
    "DRec.Trn.C149_handed_out",
    "DRec.Trn.C149_custom",
    "DRec.Trn.C149_custom_order"
   ],
   "note": "Real numbers, gradients as derivatives. The property describes what the code does; the cause is the broadcast that C85 records as a disagreement."
  },
  {
   "property": "C15",
   "status": "partial",
   "theorems": [
    "DRec.C15_vectors_partial",
    "DRec.C15_fresh_after_assign",
    "DRec.C15_entry_is_the_record",
    "DRec.C15_single_user_item_vector_fails",
    "DRec.C15_text_raises"
   ],
   "note": "All request sequences on datasets with at least two users, user vectors for any; the second item vector request of a single-user dataset raises."
  },
  {
   "property": "C150",
   "status": "partial",
   "theorems": [
    "DRec.Div.C150_chosen_partial",
    "DRec.Div.C150_first",
    "DRec.Div.C150_numbers",
    "DRec.Div.C150_first_refuted",
    "DRec.Div.C150_average"
   ],
   "note": "Proved when the first validated value is a number; with NaN there the first validated epoch is always chosen (refuted with a witness). The part on the average loss is proved."
  },
  {
   "property": "C151",
   "status": "proved",
   "theorems": [
    "DRec.Trn.C151_any",
    "DRec.Trn.C151_adam",
    "DRec.Trn.C151_momentum",
    "DRec.Trn.C151_sgd",
    "DRec.Trn.C151_smooth",
    "DRec.Trn.C151_dmf",
    "DRec.Trn.C151_caser",
    "DRec.Trn.C151_relu"
   ],
   "note": "Real numbers, gradients as derivatives, the same batch in every epoch (for Caser with the same dropout). Momentum is not negative. The bound on the learning rate depends on the number of epochs. DMF and Caser wherever no value computed for the batch with the first weights is exactly at a bound, as in C145."
  },
  {
   "property": "C152",
   "status": "partial",
   "theorems": [
    "DRec.NanRank.C152_items",
    "DRec.NanRank.C152_best_partial",
    "DRec.NanRank.C152_first",
    "DRec.NanRank.C152_blocked",
    "DRec.NanRank.C152_threshold",
    "DRec.NanRank.C152_order_refuted",
    "DRec.NanRank.C152_numbers",
    "DRec.NanRank.C152_documented",
    "DRec.NanRank.C152_list_items",
    "DRec.NanRank.C152_list_documented",
    "DRec.NanRank.C152_list_order_refuted"
   ],
   "note": "Items, their number and the threshold are proved. The best item is proved when the first score is a number; with NaN there that item always comes out, and NaN in the first n scores keep all numbers out. The order is proved when no score is NaN and refuted otherwise with a witness: scores 1, NaN, 2 stay in this order. The same for the lists that Caser, CDAE and ItemKNN rank."
  },
  {
   "property": "C16",
   "status": "partial",
   "theorems": [
    "DRec.C16_apply_refreshes_partial",
    "DRec.C16_copies_start_uncached",
    "DRec.C16_stale_after_in_place_drop"
   ],
   "note": "apply on the interaction column refreshes the cached matrix and copies start uncached; in-place drop/select/unique leave a stale matrix."
  },
  {
   "property": "C17",
   "status": "partial",
   "theorems": [
    "DRec.C17_filtered_vectors_partial",
    "DRec.C17_filtered_vector_raises",
    "DRec.C17_filtered_vector_wrong_size"
   ],
   "note": "Proved when every user and item keeps a record; otherwise the request raises."
  },
  {
   "property": "C18",
   "status": "partial",
   "theorems": [
    "DRec.C18_history_partial",
    "DRec.C18_reads_partial",
    "DRec.C18_len_partial",
    "DRec.C18_returns_partial",
    "DRec.C18_hidden_raise",
    "DRec.C18_remove_ids_shifts",
    "DRec.C18_unique_empty_breaks"
   ],
   "note": "Proved for every admissible history on any number of datasets sharing a file. The unrestricted claim is refuted: hidden reductions raise on narrow datasets, remove_internal_ids shifts columns, unique([]) raises after changing the dataset."
  },
  {
   "property": "C19",
   "status": "partial",
   "theorems": [
    "DRec.C19_isolated_partial",
    "DRec.C19_assign_leaks",
    "DRec.C19_apply_leaks"
   ],
   "note": "Proved for every history except assign on a shared table whose other users read ids and assign/apply with an open generator. Refuted there (C19_assign_leaks, C19_apply_leaks)."
  },
  {
   "property": "C20",
   "status": "partial",
   "theorems": [
    "DRec.C20_result_partial",
    "DRec.C20_same_as_memory_partial",
    "DRec.C20_failure_partial",
    "DRec.C20_not_atomic",
    "DRec.C20_mixed_types"
   ],
   "note": "Refuted: a function that raises on a later record of a column whose type stays leaves the earlier records changed. Proved for functions with one result type, for failures on the first record, and for failures while the type changes."
  },
  {
   "property": "C21",
   "status": "proved",
   "theorems": [
    "DRec.C21_table_exists",
    "DRec.C21_file_exists"
   ],
   "note": ""
  },
  {
   "property": "C22",
   "status": "partial",
   "theorems": [
    "DRec.C22_file_kept_partial",
    "DRec.C22_close_destroys",
    "DRec.C22_reduction_destroys"
   ],
   "note": "Refuted: closing the only dataset or a reduction destroys the table of a .sqlite file. Proved as long as the opened dataset itself is only read, copied and queried into copies."
  },
  {
   "property": "C23",
   "status": "partial",
   "theorems": [
    "DRec.C23_lookup_partial",
    "DRec.C23_stable_partial",
    "DRec.C23_needs_ids",
    "DRec.C23_text",
    "DRec.C23_reduction_visible"
   ],
   "note": "Refuted for users no longer in the records (the table is searched, not the state). Proved for every user and item that the dataset shows; without internal ids every lookup raises; a text that is no number is not found in a column of fractions."
  },
  {
   "property": "C24",
   "status": "partial",
   "theorems": [
    "DRec.C24_bounded",
    "DRec.C24_right_partial",
    "DRec.C24_frame_partial",
    "DRec.C24_texts",
    "DRec.C24_stale",
    "DRec.C24_memory_error"
   ],
   "note": "The bound holds for every sequence. The vectors are right after every admissible history on a dataset with numeric ids and interactions; interactions stored as number texts count like the numbers. Vectors are stale after modifications (C24_stale)."
  },
  {
   "property": "C25",
   "status": "partial",
   "theorems": [
    "DRec.C25_same_partial",
    "DRec.C25_returns_partial",
    "DRec.C25_text_names_column",
    "DRec.C25_missing_value",
    "DRec.C25_double_quote",
    "DRec.C25_no_types",
    "DRec.C25_hidden_raise"
   ],
   "note": "Both backends show the same columns and records after every history of operations both support. Without that condition the claim is false; five witnesses."
  },
  {
   "property": "C26",
   "status": "partial",
   "theorems": [
    "DRec.C26_chunks_partial",
    "DRec.C26_import_partial",
    "DRec.C26_last_line_partial",
    "DRec.C26_fails",
    "DRec.C26_fails_empty"
   ],
   "note": "Proved for files in which no line ends inside a quoted field, all chunk sizes, with or without a line end after the last line. Refuted when a quoted field contains a line break (C26_fails); an empty file with a header raises (C26_fails_empty)."
  },
  {
   "property": "C27",
   "status": "partial",
   "theorems": [
    "DRec.C27_db_partial",
    "DRec.C27_fails_comma",
    "DRec.C27_fails_number",
    "DRec.C27_fails_empty",
    "DRec.C27_fails_missing",
    "DRec.C27_mem_partial",
    "DRec.C27_fails_mem"
   ],
   "note": "Round trip proved for cells whose text reads back and has no delimiter or quote (in memory also with separators and missing numbers); refuted for text with a comma, text that looks like a number, missing numbers and the empty dataset in the database, and pandas NA tokens."
  },
  {
   "property": "C28",
   "status": "partial",
   "theorems": [
    "DRec.C28_fails",
    "DRec.C28_crash_partial",
    "DRec.C28_new_path",
    "DRec.C28_others",
    "DRec.C28_complete",
    "DRec.C28_in_use"
   ],
   "note": "Refuted when overwriting (the old file is removed before the new one is in place, C28_fails); proved for a fresh path and for all other files."
  },
  {
   "property": "C29",
   "status": "partial",
   "theorems": [
    "DRec.C29_listed_partial",
    "DRec.C29_files_partial",
    "DRec.C29_cleanup_registry",
    "DRec.C29_unregister_raises",
    "DRec.C29_names_clean",
    "DRec.C29_fails_blank",
    "DRec.C29_fails_line"
   ],
   "note": "Proved for paths without line breaks and surrounding blanks, which includes all names the library generates; refuted for the others."
  },
  {
   "property": "C30",
   "status": "partial",
   "theorems": [
    "DRec.C30_db_partial",
    "DRec.C30_db_refused",
    "DRec.C30_fails_one_column",
    "DRec.C30_fails_one_number",
    "DRec.C30_fails_repeated",
    "DRec.C30_argument_changed",
    "DRec.C30_mem_partial",
    "DRec.C30_fails_ignored"
   ],
   "note": "The in-memory dataset ignores the columns argument (C30_fails_ignored); the database dataset breaks with a single column, keeps a repeated id column, and edits the caller's list."
  },
  {
   "property": "C31",
   "status": "proved",
   "theorems": [
    "DRec.C31_needs_columns",
    "DRec.C31_no_ids",
    "DRec.C31_memory",
    "DRec.C31_fallback",
    "DRec.C31_other_errors",
    "DRec.C31_database",
    "DRec.C31_sqlite_without_columns",
    "DRec.C31_columns_kept"
   ],
   "note": ""
  },
  {
   "property": "C32",
   "status": "proved",
   "theorems": [
    "DRec.C32_random_split",
    "DRec.C32_every_choice"
   ],
   "note": "The product n*ratio is computed in floating point (C121). Over the in-memory dataset, up to 2^53 records."
  },
  {
   "property": "C33",
   "status": "partial",
   "theorems": [
    "DRec.C33_leave_k_out_partial",
    "DRec.C33_every_choice",
    "DRec.C33_rejects",
    "DRec.C37_text_ids_not_split"
   ],
   "note": "Proved for integer user ids and every interleaving; C33_every_choice: every choice of k records per user happens for some random outcome; fails for text user ids (C37_text_ids_not_split)."
  },
  {
   "property": "C34",
   "status": "partial",
   "theorems": [
    "DRec.C34_leave_ratio_out_partial",
    "DRec.C34_every_choice",
    "DRec.C34_rejects",
    "DRec.C37_text_ids_not_split",
    "DRec.C121_ratio_fails"
   ],
   "note": "Proved for integer user ids, with the product in floating point (C121); every choice of that many records happens for some random outcome; fails for text user ids."
  },
  {
   "property": "C35",
   "status": "partial",
   "theorems": [
    "DRec.C35_latest_partial",
    "DRec.C35_last_listed_is_tested",
    "DRec.C35_fails"
   ],
   "note": "Holds when the records of each user are listed in ascending time order; fails otherwise: the record listed last is always tested."
  },
  {
   "property": "C36",
   "status": "proved",
   "theorems": [
    "DRec.C36_no_lost_update",
    "DRec.C36_leave_k_out",
    "DRec.C36_matrix_split"
   ],
   "note": "Small-step interleaving of lock-protected read-modify-write sections; any number of threads."
  },
  {
   "property": "C37",
   "status": "partial",
   "theorems": [
    "DRec.C37_no_deadlock",
    "DRec.C37_leave_k_out_finishes_partial",
    "DRec.C37_matrix_split_finishes_partial",
    "DRec.C37_failed_user_hangs",
    "DRec.C37_text_ids_hang",
    "DRec.C37_zero_ids_hang",
    "DRec.C37_text_ids_not_split"
   ],
   "note": "Proved for integer user ids; for text ids the verbose run never ends and the silent run splits nothing."
  },
  {
   "property": "C38",
   "status": "partial",
   "theorems": [
    "DRec.C38_matrix_split_partial",
    "DRec.C38_every_draw",
    "DRec.C38_rejects"
   ],
   "note": "Proved for integer user ids; text ids are covered by the failure of C37."
  },
  {
   "property": "C39",
   "status": "proved",
   "theorems": [
    "DRec.C39_precision",
    "DRec.C39_precision_order",
    "DRec.C39_recall",
    "DRec.C39_recall_monotone",
    "DRec.C39_recall_order",
    "DRec.C39_hit_ratio",
    "DRec.C39_hit_ratio_monotone",
    "DRec.C39_hit_ratio_order"
   ],
   "note": "Exact rational arithmetic."
  },
  {
   "property": "C40",
   "status": "proved",
   "theorems": [
    "DRec.C40_ndcg_bounds",
    "DRec.C40_ideal_is_one",
    "DRec.C40_undefined",
    "DRec.C40_missing_raises"
   ],
   "note": "Exact real arithmetic; both gain variants, any k."
  },
  {
   "property": "C41",
   "status": "proved",
   "theorems": [
    "DRec.C41_reciprocal_rank",
    "DRec.C41_average_precision",
    "DRec.C41_average_precision_perfect",
    "DRec.C41_repeated_add_nothing"
   ],
   "note": "Exact rational arithmetic."
  },
  {
   "property": "C42",
   "status": "proved",
   "theorems": [
    "DRec.C42_between",
    "DRec.C42_beta_monotone",
    "DRec.C42_symmetric"
   ],
   "note": "Exact rational arithmetic."
  },
  {
   "property": "C43",
   "status": "proved",
   "theorems": [
    "DRec.C43_error_metrics"
   ],
   "note": "The two sklearn functions are taken as their mathematical definition."
  },
  {
   "property": "C44",
   "status": "proved",
   "theorems": [
    "DRec.C44_ranking",
    "DRec.C44_recommendation",
    "DRec.C44_rounding",
    "DRec.C44_users"
   ],
   "note": "Metrics with different names (equal names are C49); exact sums (floating point sums are C122); every interleaving of the worker tasks."
  },
  {
   "property": "C45",
   "status": "partial",
   "theorems": [
    "DRec.C45_no_deadlock",
    "DRec.C45_ranking_ends",
    "DRec.C45_recommendation_ends_partial",
    "DRec.C45_recommendation_hangs",
    "DRec.C45_text_ids_fail"
   ],
   "note": "Proved for ranking_evaluation; recommendation_evaluation waits for ever as soon as one user fails."
  },
  {
   "property": "C46",
   "status": "partial",
   "theorems": [
    "DRec.C46_exact_number",
    "DRec.C46_generated",
    "DRec.C46_negatives_partial",
    "DRec.C46_loop_can_end",
    "DRec.C46_fails_repeated",
    "DRec.C46_fails_positive"
   ],
   "note": "The generated part is right; listed negatives may repeat or be train positives (witnesses)."
  },
  {
   "property": "C47",
   "status": "partial",
   "theorems": [
    "DRec.C47_known_partial",
    "DRec.C47_fails"
   ],
   "note": "Internal ids are used as raw ids: only right when raw ids include 0..n-1."
  },
  {
   "property": "C48",
   "status": "partial",
   "theorems": [
    "DRec.C48_best_is_lowest",
    "DRec.C48_best_partial",
    "DRec.C48_fails"
   ],
   "note": "The code always picks a record with the lowest interaction."
  },
  {
   "property": "C49",
   "status": "partial",
   "theorems": [
    "DRec.C49_own_result_partial",
    "DRec.C49_shared_name"
   ],
   "note": "Proved for distinct names; two instances of one class share one entry."
  },
  {
   "property": "C50",
   "status": "proved",
   "theorems": [
    "DRec.C50_pairs",
    "DRec.C50_count_none",
    "DRec.C50_error"
   ],
   "note": "For every predict function."
  },
  {
   "property": "C51",
   "status": "proved",
   "theorems": [
    "DRec.C51_recommend",
    "DRec.C51_unknown_user"
   ],
   "note": "For the general ranking and every prediction function; C66_cdae_is_base_rank carries it over to CDAE."
  },
  {
   "property": "C52",
   "status": "partial",
   "theorems": [
    "DRec.C52_rank_partial",
    "DRec.C52_first_n",
    "DRec.C52_unknown_raises",
    "DRec.C52_unreadable_raises"
   ],
   "note": "Ids that cannot be read for the item column raise even with skip_invalid_items=True."
  },
  {
   "property": "C53",
   "status": "partial",
   "theorems": [
    "DRec.C53_never_raises",
    "DRec.C53_skip_partial",
    "DRec.C53_raises",
    "DRec.C53_not_fitted",
    "DRec.C53_cdae_unknown_item"
   ],
   "note": "CDAE returns a vector for a known user and an unknown item."
  },
  {
   "property": "C54",
   "status": "partial",
   "theorems": [
    "DRec.C54_first_best_partial",
    "DRec.C54_fit_partial",
    "DRec.C54_fails_missing"
   ],
   "note": "When a metric is missing from some callbacks its values are paired with the wrong epochs."
  },
  {
   "property": "C55",
   "status": "partial",
   "theorems": [
    "DRec.C55_restored_partial",
    "DRec.C55_max_rule_partial",
    "DRec.C55_no_best",
    "DRec.C55_fails_layers",
    "DRec.C55_fails_epoch_zero"
   ],
   "note": "Weights of layers and keras models are stored by reference and never restored; epoch 0 means the last one."
  },
  {
   "property": "C56",
   "status": "partial",
   "theorems": [
    "DRec.C56_completes_partial",
    "DRec.C56_fails_zero",
    "DRec.C56_fails_no_results"
   ],
   "note": "Exact condition under which fit with MaxValidationValueRule completes."
  },
  {
   "property": "C57",
   "status": "partial",
   "theorems": [
    "DRec.C57_copy_raises",
    "DRec.C57_unmodified_partial",
    "DRec.C57_in_place"
   ],
   "note": "fit(copy_dataset=True) always raises: no dataset has the method it calls. Without the copy the model works with the dataset passed in."
  },
  {
   "property": "C58",
   "status": "proved",
   "theorems": [
    "DRec.C58_mean",
    "DRec.C58_epochs"
   ],
   "note": "For every sequence of operations."
  },
  {
   "property": "C59",
   "status": "partial",
   "theorems": [
    "DRec.C59_refit_partial",
    "DRec.C59_same_data_partial",
    "DRec.C59_fails"
   ],
   "note": "The full claim (a second fit is a function of the new data only) is refuted by C59_fails: similarities and neighbours of the earlier fit are kept. The partial theorem says exactly when a refit agrees with a fresh fit."
  },
  {
   "property": "C60",
   "status": "proved",
   "theorems": [
    "DRec.C60_cosine_cf_value",
    "DRec.C60_cosine_cf",
    "DRec.C60_pearson_value",
    "DRec.C60_pearson",
    "DRec.C60_msd_value",
    "DRec.C60_msd",
    "DRec.C60_jaccard_iterative_value",
    "DRec.C60_jaccard_matrix_value",
    "DRec.C60_jaccard",
    "DRec.C60_jaccard_same",
    "DRec.C60_cosine_value",
    "DRec.C60_cosine",
    "DRec.C60_adjusted_value",
    "DRec.C60_adjusted"
   ],
   "note": "Exact arithmetic; NaN results are absent entries; the diagonal of plain cosine is stated for rows with a nonzero value."
  },
  {
   "property": "C61",
   "status": "proved",
   "theorems": [
    "DRec.C61_walk",
    "DRec.C61_values",
    "DRec.C61_count"
   ],
   "note": ""
  },
  {
   "property": "C62",
   "status": "proved",
   "theorems": [
    "DRec.C62_dense",
    "DRec.C62_one_value",
    "DRec.C62_neighbours",
    "DRec.C62_symmetric",
    "DRec.C62_unknown"
   ],
   "note": ""
  },
  {
   "property": "C63",
   "status": "proved",
   "theorems": [
    "DRec.C63_get_interaction",
    "DRec.C63_predict_default",
    "DRec.C63_range",
    "DRec.C63_neighbour_range",
    "DRec.C63_none"
   ],
   "note": ""
  },
  {
   "property": "C64",
   "status": "partial",
   "theorems": [
    "DRec.C64_rated",
    "DRec.C64_neighbour_records",
    "DRec.C64_own_interaction",
    "DRec.C64_item",
    "DRec.C64_item_ok",
    "DRec.C64_user_partial",
    "DRec.C64_user_scores_partial",
    "DRec.C64_fails_averages",
    "DRec.C64_fails_duplicates"
   ],
   "note": "Holds for ItemKNN. For UserKNN it is refuted with averages on (C64_fails_averages) and with repeated ratings (C64_fails_duplicates); the partial theorems cover the rest."
  },
  {
   "property": "C65",
   "status": "partial",
   "theorems": [
    "DRec.C65_standardize",
    "DRec.C65_targets_partial",
    "DRec.C65_zero_below",
    "DRec.C65_constant"
   ],
   "note": "The range ignores the 0 used for unobserved pairs when the smallest value is above 1, and a single value divides by zero."
  },
  {
   "property": "C66",
   "status": "partial",
   "theorems": [
    "DRec.C66_cdae",
    "DRec.C66_cdae_is_base_rank",
    "DRec.C66_caser_partial",
    "DRec.C66_caser_ignores_list",
    "DRec.C66_cdae_predicts"
   ],
   "note": "Caser with novelty=False ignores the given items."
  },
  {
   "property": "C67",
   "status": "partial",
   "theorems": [
    "DRec.C67_point_sampler_partial",
    "DRec.C67_sampler_starts",
    "DRec.C67_database_sampler_partial",
    "DRec.C68_database_yields_positive_pair"
   ],
   "note": "Full for in-memory datasets; database datasets need at most one record per pair, a witness shows the failure otherwise."
  },
  {
   "property": "C68",
   "status": "partial",
   "theorems": [
    "DRec.C68_null_pairs_partial",
    "DRec.C68_below_threshold_never_yielded",
    "DRec.C68_database_pairs",
    "DRec.C68_database_yields_positive_pair"
   ],
   "note": "Never a positive pair in memory, exact without threshold; the code drops below-threshold pairs in memory (witness, also loops forever) and yields positive pairs on databases with duplicates (witness)."
  },
  {
   "property": "C69",
   "status": "proved",
   "theorems": [
    "DRec.C69_negative_ids"
   ],
   "note": "For every configuration with numeric interactions and every random outcome."
  },
  {
   "property": "C70",
   "status": "partial",
   "theorems": [
    "DRec.C70_sequences_partial",
    "DRec.C70_fixed_length",
    "DRec.C70_fixed_length_no_error",
    "DRec.C70_lengths_swapped",
    "DRec.C70_gives_up",
    "DRec.C70_range_error"
   ],
   "note": "Full shape when min = max; the code swaps lengths below the cap (witness) and raises between max and max + n_targets (witness)."
  },
  {
   "property": "C71",
   "status": "proved",
   "theorems": [
    "DRec.C71_random_records",
    "DRec.C71_needs_ids"
   ],
   "note": "In-memory generator, with and without query."
  },
  {
   "property": "C72",
   "status": "partial",
   "theorems": [
    "DRec.C72_fails",
    "DRec.C72_fails_test",
    "DRec.C72_whole_partial",
    "DRec.C72_between",
    "DRec.C72_beginning",
    "DRec.C72_disjoint"
   ],
   "note": "Refuted: a truncated train or test file is used as it is. Proved for crash points outside the two writes."
  },
  {
   "property": "C73",
   "status": "proved",
   "theorems": [
    "DRec.C73_skipped",
    "DRec.C73_ranking",
    "DRec.C73_recommendation_skipped",
    "DRec.C73_recommendation"
   ],
   "note": "For integer user and item ids; the model's rank and recommend functions are arbitrary."
  },
  {
   "property": "C74",
   "status": "partial",
   "theorems": [
    "DRec.C74_partial",
    "DRec.C74_fails"
   ],
   "note": "Proved when the fields contain no comma, quote or line break; refuted with a comma (C74_fails)."
  },
  {
   "property": "C75",
   "status": "proved",
   "theorems": [
    "DRec.C75_stops"
   ],
   "note": ""
  },
  {
   "property": "C76",
   "status": "partial",
   "theorems": [
    "DRec.C76_reopen_partial",
    "DRec.C76_returns_partial",
    "DRec.C76_unchanged_partial",
    "DRec.C76_ids_are_written",
    "DRec.C76_opened_is_never_saved"
   ],
   "note": "Holds for everything made from an import: same records after reopening, any chunk size, no dataset changed. Refuted in two points: internal ids are in the file, and a dataset opened from a .sqlite file can never be saved as one."
  },
  {
   "property": "C77",
   "status": "partial",
   "theorems": [
    "DRec.C77_never_written_back",
    "DRec.C77_file_left_alone_partial"
   ],
   "note": "Refuted: save() without a path raises after every history. What holds: it leaves the file and all datasets as they were."
  },
  {
   "property": "C78",
   "status": "partial",
   "theorems": [
    "DRec.C78_same_partial",
    "DRec.C78_variables_raise",
    "DRec.C78_layers_raise",
    "DRec.C78_cdae_raises",
    "DRec.C78_caser_raises",
    "DRec.C78_dmf_partial",
    "DRec.C78_wrong_epoch",
    "DRec.C78_registered",
    "DRec.Trn.C78_caser_reg",
    "DRec.Trn.C78_dmf_reg"
   ],
   "note": "Holds for DMF with a rule that ignores the losses (or none) and an optimizer that does not count its calls, and in general when the loss still reaches all registered trainables. Refuted: the second fit of CDAE and of Caser always raises, early stopping goes back to an epoch of the first fit, and with Adam the old networks count as calls (C142_refit_refuted)."
  },
  {
   "property": "C79",
   "status": "proved",
   "theorems": [
    "DRec.C79_prediction_range"
   ],
   "note": "All networks, all dataset states; score between 1e-6 and 1 by Cauchy-Schwarz."
  },
  {
   "property": "C80",
   "status": "partial",
   "theorems": [
    "DRec.C80_learned_partial",
    "DRec.C80_raw_targets",
    "DRec.C80_raw_unreachable",
    "DRec.C80_raw_wrong"
   ],
   "note": "Holds with use_nce. Without it predictions are rescaled although the targets were not standardised, and targets above 1 cannot be reached."
  },
  {
   "property": "C81",
   "status": "proved",
   "theorems": [
    "DRec.C81_scores",
    "DRec.C81_depends",
    "DRec.C81_formula",
    "DRec.C81_accepts"
   ],
   "note": "All weights, all earlier requests."
  },
  {
   "property": "C82",
   "status": "partial",
   "theorems": [
    "DRec.C82_desired_partial",
    "DRec.C82_corruption",
    "DRec.C82_unbiased",
    "DRec.C82_threshold_zero",
    "DRec.C82_several_records"
   ],
   "note": "Holds for positive thresholds and one record per pair; the corruption part holds always. Refuted otherwise: absent items count as liked with threshold 0, and values of repeated records are added up."
  },
  {
   "property": "C83",
   "status": "partial",
   "theorems": [
    "DRec.C83_inputs_partial",
    "DRec.C83_batches_partial",
    "DRec.C83_single_user_raises",
    "DRec.C83_plain",
    "DRec.C83_normalised"
   ],
   "note": "Holds with at least two users. With one user the item vector raises."
  },
  {
   "property": "C84",
   "status": "partial",
   "theorems": [
    "DRec.C84_rank_partial",
    "DRec.C84_training_partial",
    "DRec.C84_width",
    "DRec.C84_short_history",
    "DRec.C84_few_filters",
    "DRec.C84_no_sort_column"
   ],
   "note": "Holds for L <= n_h and users with at least L records. Refuted for users with a shorter history, for L > n_h, and for datasets without the sort column."
  },
  {
   "property": "C85",
   "status": "partial",
   "theorems": [
    "DRec.C85_loss_partial",
    "DRec.C85_order_ignored",
    "DRec.C85_perfect_is_not_zero"
   ],
   "note": "Refuted: shapes (B,1,I) and (B,I) are broadcast, so every reconstruction is compared with the vectors of all samples. Holds when all vectors of the batch are equal."
  },
  {
   "property": "C86",
   "status": "proved",
   "theorems": [
    "DRec.C86_examples"
   ],
   "note": "All datasets with numeric interactions, all random outcomes."
  },
  {
   "property": "C87",
   "status": "partial",
   "theorems": [
    "DRec.C87_sparsity_partial",
    "DRec.C87_several_records",
    "DRec.C87_empty"
   ],
   "note": "Holds with one record per pair and at least one record. Repeated records are counted as if they were other pairs; an empty dataset divides by zero."
  },
  {
   "property": "C88",
   "status": "partial",
   "theorems": [
    "DRec.C88_recent_partial",
    "DRec.C88_last_records",
    "DRec.C88_disliked_item"
   ],
   "note": "Refuted: disliked items are fed to the network too. Holds when all records of the user reach the threshold; in general the last L records in sort order are used."
  },
  {
   "property": "C89",
   "status": "partial",
   "theorems": [
    "DRec.C89_csv",
    "DRec.C89_frame_partial",
    "DRec.C89_fails"
   ],
   "note": "Csv import: proved for both backends. Dataframes: proved except when an item label is user, or an interaction label is user or item, without being a column; then a dataset without users is made (C89_fails)."
  },
  {
   "property": "C90",
   "status": "partial",
   "theorems": [
    "DRec.C90_read_partial",
    "DRec.C90_fails_exchanged",
    "DRec.C90_fails_identity",
    "DRec.C90_constructor_writes"
   ],
   "note": "Proved for labels that do not name the standard column of another label. Exchanged labels lose both columns, and a label equal to its standard name that is another string object loses its column."
  },
  {
   "property": "C91",
   "status": "partial",
   "theorems": [
    "DRec.C91_record_ids_partial",
    "DRec.C91_fails"
   ],
   "note": "The index labels become record ids. Proved for distinct index labels, refuted for repeated ones."
  },
  {
   "property": "C92",
   "status": "partial",
   "theorems": [
    "DRec.C92_declared_partial",
    "DRec.C92_library",
    "DRec.C92_fails",
    "DRec.C92_left_out"
   ],
   "note": "Proved for every metric without an undeclared local variable of the name of an argument, which includes all metrics of the library. A metric with such a variable raises for every user and is reported as 0."
  },
  {
   "property": "C93",
   "status": "partial",
   "theorems": [
    "DRec.C93_all_count_partial",
    "DRec.C93_ndcg_partial",
    "DRec.C93_recommendation_partial",
    "DRec.C93_fails_fscore",
    "DRec.C93_fails_precision"
   ],
   "note": "Proved for recall, hit ratio, average precision, reciprocal rank and NDCG on users with a relevant item, and for precision on users with a recommendation. The F-score leaves out every user without a hit, precision every user without recommendations."
  },
  {
   "property": "C94",
   "status": "partial",
   "theorems": [
    "DRec.C94_same_as_memory_partial",
    "DRec.C94_each_once",
    "DRec.C94_full_loop",
    "DRec.C94_fails_again",
    "DRec.C94_nexts"
   ],
   "note": "Each record once, in order, listed as open exactly while the cursor is: proved for every program. Agreement with the in-memory generator up to the first step that reaches the end; after that the database generator raises."
  },
  {
   "property": "C95",
   "status": "partial",
   "theorems": [
    "DRec.C95_utf8",
    "DRec.C95_latin1_iff",
    "DRec.C95_repeat_partial",
    "DRec.C95_fails_repeat",
    "DRec.C95_download_iff",
    "DRec.C95_db_needs_utf8"
   ],
   "note": "Proved for UTF-8 configurations. With the Latin-1 configuration texts survive exactly when they are ASCII; the database backend raises on files that are not valid UTF-8 whatever encoding is given."
  },
  {
   "property": "C96",
   "status": "partial",
   "theorems": [
    "DRec.C96_no_effect_partial",
    "DRec.C96_last_partial",
    "DRec.C96_raises",
    "DRec.C96_fails"
   ],
   "note": "A second close changes nothing, after every history. It raises a KeyError exactly when another dataset of the file is open."
  },
  {
   "property": "C97",
   "status": "partial",
   "theorems": [
    "DRec.C97_others_partial",
    "DRec.C97_unfiltered_partial",
    "DRec.C97_arguments_partial",
    "DRec.C97_fails_records",
    "DRec.C97_fails_file"
   ],
   "note": "Proved for closed datasets without a filter, and for all others unless exactly one dataset is registered on the table. In that case the reduction deletes records of the open dataset. Reading after the temporary file was removed makes an empty file; a read with a wrong column raises before that."
  },
  {
   "property": "C98",
   "status": "partial",
   "theorems": [
    "DRec.Lock.C98_no_lock_partial",
    "DRec.Lock.C98_reads_partial",
    "DRec.Lock.C98_fails_apply",
    "DRec.Lock.C98_fails_random",
    "DRec.Lock.C98_fails_values",
    "DRec.Lock.C98_close_releases",
    "DRec.Lock.C98_exclusive",
    "DRec.Lock.C98_own_generators",
    "DRec.Lock.C98_fails_own"
   ],
   "note": "Proved for all histories without random generators, without functions that raise in apply, and without changes of the data while a value generator is suspended; refuted for each of the three."
  },
  {
   "property": "C99",
   "status": "partial",
   "theorems": [
    "DRec.C99_ranking_rejects_partial",
    "DRec.C99_recommendation_rejects_partial",
    "DRec.C99_ranking_accepts",
    "DRec.C99_recommendation_accepts",
    "DRec.C99_train_set",
    "DRec.C99_fails_no_cutoffs"
   ],
   "note": "Proved for all numbers that are not positive. An empty list of cut-offs is accepted although the evaluation of every user then raises."
  }
 ]
}