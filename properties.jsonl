{"id": "C01", "title": "select returns exactly the matching records", "statement": "In-memory select(q) yields exactly the records that satisfy every condition of q, each once, with all values and record ids unchanged and in their original order; with copy=True the dataset it is called on is left unchanged, with copy=False that dataset becomes the result.", "quantifier": "every dataset content, every column set, every conjunction of conditions", "why_tests_cant": "Tests fix a handful of tables and queries; the claim ranges over all tables, operators, value types and numbers of conditions.", "anchors": ["DRecPy/Dataset/mem_dataset.py:select,_apply_query", "DRecPy/Dataset/dataset_abc.py:select"]}
{"id": "C02", "title": "query text means what it says", "statement": "Writing any list of conditions as \"col op value, col op value\" and parsing it gives back exactly those conditions; extra blanks around the commas do not change the meaning; a text with a segment that does not have three blank-separated parts, an unknown column or an unknown operator is rejected and the dataset is left unchanged.", "quantifier": "every list of conditions, every text", "why_tests_cant": "The set of texts is infinite and the parser works by splitting on separators that may also occur inside values.", "anchors": ["DRecPy/Dataset/mem_dataset.py:_apply_query", "DRecPy/Dataset/db_dataset.py:_parse_query"]}
{"id": "C03", "title": "selections compose", "statement": "select(q1) followed by select(q2) gives the same records as the single query \"q1, q2\" and as the reverse order; repeating a selection changes nothing; a selection never adds records.", "quantifier": "every dataset and every pair of queries, both backends", "why_tests_cant": "An algebraic law over all pairs of queries.", "anchors": ["DRecPy/Dataset/mem_dataset.py:select,_apply_query", "DRecPy/Dataset/db_dataset.py:select,_build_new_state"]}
{"id": "C04", "title": "assigning internal ids does not change what a filter on user or item returns", "statement": "For every condition on the user or item column the in-memory dataset returns the same records before and after internal ids are assigned.", "quantifier": "every dataset and every condition on user or item", "why_tests_cant": "The code silently rewrites such conditions to conditions on internal ids; equality of results has to hold for all tables and operators.", "anchors": ["DRecPy/Dataset/mem_dataset.py:_apply_query,user_to_uid,item_to_iid"]}
{"id": "C05", "title": "drop and keep split the dataset", "statement": "drop(ids) and drop(ids, keep=True) contain every record exactly once between them, share no record, keep the values and order, and ids that are not in the dataset have no effect.", "quantifier": "every dataset and every list of record ids (with repetitions and unknown ids), both backends", "why_tests_cant": "All subsets of record ids of all tables.", "anchors": ["DRecPy/Dataset/mem_dataset.py:drop", "DRecPy/Dataset/db_dataset.py:drop"]}
{"id": "C06", "title": "unique keeps the first record of each combination", "statement": "unique(cols) holds exactly one record for each combination of values on the columns of cols other than rid that occurs in the dataset, namely the earliest one; count_unique(cols) is the number of distinct combinations; applying unique twice changes nothing.", "quantifier": "every in-memory dataset and every list of its columns with at least one column other than rid", "why_tests_cant": "Quantifies over all tables with arbitrary repetition patterns.", "anchors": ["DRecPy/Dataset/mem_dataset.py:unique", "DRecPy/Dataset/dataset_abc.py:count_unique", "DRecPy/Dataset/db_dataset.py:unique,count_unique"]}
{"id": "C07", "title": "unique behaves the same in both backends and does not touch its arguments", "statement": "For the same data and the same arguments the in-memory and the database dataset return the same records from unique(), including the default columns=None, and the list passed by the caller is not modified.", "quantifier": "every dataset, every columns argument", "why_tests_cant": "Cross-backend agreement for all tables and argument lists, plus a frame condition on the caller's list.", "anchors": ["DRecPy/Dataset/mem_dataset.py:unique", "DRecPy/Dataset/db_dataset.py:unique", "DRecPy/Dataset/dataset_abc.py:_handle_columns"]}
{"id": "C08", "title": "exists, select_one, len, max and min agree with the records", "statement": "exists(q) is true exactly when some record satisfies q; select_one(q) is the first such record or None; len is the number of records; max and min of a numeric column are attained and bound every value.", "quantifier": "every dataset and query", "why_tests_cant": "Agreement between different read paths on all tables.", "anchors": ["DRecPy/Dataset/mem_dataset.py:select_one,__len__,max,min", "DRecPy/Dataset/dataset_abc.py:exists,select_one", "DRecPy/Dataset/db_dataset.py:select_one,max,min"]}
{"id": "C09", "title": "in-memory copies are independent", "statement": "After copying a dataset, no sequence of operations on the copies (select, drop, unique, apply, assigning or removing internal ids, in place or not) changes the records, columns or id mappings seen through any other copy.", "quantifier": "every number of live datasets and every history of operations on them", "why_tests_cant": "Copies share the underlying table object; independence must hold for every interleaved history.", "anchors": ["DRecPy/Dataset/mem_dataset.py:copy,apply,assign_internal_ids,remove_internal_ids,unique,drop,select"]}
{"id": "C10", "title": "internal ids are a bijection", "statement": "After assign_internal_ids the internal user ids are exactly 0..n-1 in order of first appearance, two records have the same uid exactly when they have the same user, user_to_uid and uid_to_user are inverse to each other; the same for items.", "quantifier": "every dataset", "why_tests_cant": "All tables with any number of users and items and any order of records.", "anchors": ["DRecPy/Dataset/mem_dataset.py:assign_internal_ids,user_to_uid,uid_to_user,item_to_iid,iid_to_item", "DRecPy/Dataset/db_dataset.py:assign_internal_ids"]}
{"id": "C11", "title": "id conversions outside the known range", "statement": "Without internal ids every conversion raises; with internal ids an unknown raw id or an internal id outside 0..n-1 gives None and never the id of something else; an integer-typed column rejects a raw id that is not an integer.", "quantifier": "every dataset state and every argument", "why_tests_cant": "Ranges over all argument values including those never seen in tests.", "anchors": ["DRecPy/Dataset/mem_dataset.py:user_to_uid,uid_to_user,item_to_iid,iid_to_item", "DRecPy/Dataset/db_dataset.py:user_to_uid,uid_to_user,item_to_iid,iid_to_item"]}
{"id": "C12", "title": "internal ids survive filtering, can be reassigned and removed", "statement": "Selecting, dropping or de-duplicating keeps the internal id of every remaining record; assigning again makes ids consecutive again; removing internal ids restores exactly the records and columns before assignment.", "quantifier": "every dataset and every chain of filters", "why_tests_cant": "Histories of arbitrary length.", "anchors": ["DRecPy/Dataset/mem_dataset.py:assign_internal_ids,remove_internal_ids,select,drop,unique"]}
{"id": "C13", "title": "a user that is not in the dataset has no internal id", "statement": "user_to_uid(u) is not None exactly when some record of that dataset has user u, also for datasets obtained by filtering one with internal ids.", "quantifier": "every dataset reachable by filtering, every u", "why_tests_cant": "The mapping is cached separately from the records, so agreement is an invariant over histories.", "anchors": ["DRecPy/Dataset/mem_dataset.py:user_to_uid,copy,select,drop", "DRecPy/Dataset/db_dataset.py:user_to_uid"]}
{"id": "C14", "title": "apply changes one column of every record and nothing else", "statement": "apply(c, f) replaces the value v of column c by f(v) in every record and leaves other columns, record ids and order alone; the identifier columns are rejected; if f raises on any record the in-memory dataset is unchanged.", "quantifier": "every dataset, column and function", "why_tests_cant": "Quantifies over arbitrary functions and tables, including functions failing on some record.", "anchors": ["DRecPy/Dataset/mem_dataset.py:apply", "DRecPy/Dataset/db_dataset.py:apply"]}
{"id": "C15", "title": "interaction vectors hold the interactions", "statement": "On a dataset with freshly assigned ids, the vector of user u has one entry per item and its entry for item i is the interaction value of the (u,i) record and 0 when there is none (and symmetrically for items), whether or not the matrix was cached before.", "quantifier": "every dataset with at most one record per pair, every id, every order of requests", "why_tests_cant": "All tables and all sequences of vector requests (the second request takes a different code path).", "anchors": ["DRecPy/Dataset/mem_dataset.py:select_user_interaction_vec,select_item_interaction_vec,_build_interaction_matrix"]}
{"id": "C16", "title": "interaction vectors follow later modifications", "statement": "After any in-place modification the interaction vectors describe the current records.", "quantifier": "every history of operations and vector requests", "why_tests_cant": "Cache coherence over all histories.", "anchors": ["DRecPy/Dataset/mem_dataset.py:select_user_interaction_vec,apply,select,drop", "DRecPy/Dataset/db_dataset.py:select_user_interaction_vec,apply"]}
{"id": "C17", "title": "interaction vectors can be requested on filtered datasets", "statement": "For a dataset obtained by filtering one with internal ids, requesting the vector of any user present succeeds and is correct.", "quantifier": "every filter and every id", "why_tests_cant": "The matrix is dimensioned from distinct counts while ids keep gaps; the failing cases depend on the data.", "anchors": ["DRecPy/Dataset/mem_dataset.py:_build_interaction_matrix,select_user_interaction_vec"]}
{"id": "C18", "title": "the database dataset behaves as a plain table under every history", "statement": "Whatever sequence of select, drop, unique, copy, assign/remove ids and reads is issued, the records seen through each database dataset are those that the same operations give on a plain list of records; in particular the hidden table reductions triggered by counters are never visible.", "quantifier": "every history of operations over any number of live datasets (no values() generator left open)", "why_tests_cant": "Reductions are triggered by counters over the whole history; unit tests exercise a few short histories.", "anchors": ["DRecPy/Dataset/db_dataset.py:_record_interaction,_update_state,_optimize_states,_build_new_state,select,drop,unique"]}
{"id": "C19", "title": "database datasets sharing a file do not affect each other", "statement": "No operation on one database dataset changes the records seen through another one backed by the same file.", "quantifier": "every history, every pair of live datasets", "why_tests_cant": "Isolation over all histories with shared mutable tables.", "anchors": ["DRecPy/Dataset/db_dataset.py:_optimize_states,apply,assign_internal_ids,copy,_shared_db_table_instances"]}
{"id": "C20", "title": "database apply is all or nothing", "statement": "If the function passed to apply raises on some record, the dataset content is unchanged; when it does not raise the result is the same as in memory.", "quantifier": "every dataset and every function", "why_tests_cant": "Failure may occur at any record.", "anchors": ["DRecPy/Dataset/db_dataset.py:apply"]}
{"id": "C21", "title": "a table is dropped only when nobody uses it", "statement": "For every history of copies, reductions, applies and closes, the table behind a live dataset exists, and the temporary database file is deleted exactly when the last dataset using it is closed.", "quantifier": "every history of creations and closes in any order", "why_tests_cant": "Reference counting over all histories.", "anchors": ["DRecPy/Dataset/db_dataset.py:close,copy,_optimize_states,_shared_db_instances,_shared_db_table_instances"]}
{"id": "C22", "title": "closing a dataset loaded from a user file does not destroy the file content", "statement": "Opening an existing .sqlite file and closing the dataset leaves the records of that file in place.", "quantifier": "every file content and every history ending in close", "why_tests_cant": "Data loss depends on reference counts at close time.", "anchors": ["DRecPy/Dataset/db_dataset.py:close,_load_from_db"]}
{"id": "C23", "title": "database id lookups do not depend on hidden reductions", "statement": "user_to_uid and friends return the same answer whether or not a table reduction happened before.", "quantifier": "every history, every id", "why_tests_cant": "The trigger is a hidden counter.", "anchors": ["DRecPy/Dataset/db_dataset.py:user_to_uid,uid_to_user,item_to_iid,iid_to_item,_optimize_states"]}
{"id": "C24", "title": "the database vector cache is bounded and right", "statement": "The number of cached interaction vectors never exceeds limit+1, and without modifications every returned vector equals the one computed from the records.", "quantifier": "every sequence of vector requests", "why_tests_cant": "Sequences of arbitrary length with evictions at arbitrary points.", "anchors": ["DRecPy/Dataset/db_dataset.py:select_user_interaction_vec,select_item_interaction_vec"]}
{"id": "C25", "title": "both backends give the same answers", "statement": "Starting from the same records, any sequence of select, drop, unique(cols), assign ids and apply gives the same set of records in the in-memory and the database dataset.", "quantifier": "every history of supported operations", "why_tests_cant": "Equivalence of two implementations over all histories.", "anchors": ["DRecPy/Dataset/mem_dataset.py:MemoryInteractionDataset", "DRecPy/Dataset/db_dataset.py:DatabaseInteractionDataset"]}
{"id": "C26", "title": "csv import does not depend on the chunk size", "statement": "Importing a file into the database backend gives one record per line, in file order, with record ids 0..n-1, whatever the chunk size, and skipped columns do not appear.", "quantifier": "every file and every chunk size >= 1", "why_tests_cant": "Chunk boundaries can fall anywhere.", "anchors": ["DRecPy/Dataset/db_dataset.py:_load_from_csv"]}
{"id": "C27", "title": "save then load returns the same records", "statement": "Saving a dataset as csv and loading it back gives the same records (record ids renumbered from 0).", "quantifier": "every dataset content", "why_tests_cant": "Values may contain the separators used by the file format.", "anchors": ["DRecPy/Dataset/db_dataset.py:save,_load_from_csv", "DRecPy/Dataset/mem_dataset.py:save"]}
{"id": "C28", "title": "saving as sqlite survives a crash", "statement": "Whatever point the process dies at while saving to an existing .sqlite path, afterwards the path holds either the complete old or the complete new content.", "quantifier": "every crash point", "why_tests_cant": "Crash points between file system operations cannot be hit by unit tests.", "anchors": ["DRecPy/Dataset/db_dataset.py:save"]}
{"id": "C29", "title": "the temporary file registry", "statement": "Every temporary database file that was registered and not unregistered is listed; cleaning up deletes exactly the listed files; unregistering a file removes only that file from the list.", "quantifier": "every sequence of register, unregister and cleanup", "why_tests_cant": "Sequences of arbitrary length over a persistent file.", "anchors": ["DRecPy/Dataset/file_utils.py:register_temp_file,unregister_temp_file,delete_temp_files"]}
{"id": "C30", "title": "save writes the requested columns and never internal ids", "statement": "The saved csv has exactly the requested columns in the requested order (all but the identifiers when none are requested) and never rid, uid or iid.", "quantifier": "every dataset and column list, both backends", "why_tests_cant": "All column lists.", "anchors": ["DRecPy/Dataset/mem_dataset.py:save", "DRecPy/Dataset/db_dataset.py:save"]}
{"id": "C31", "title": "the dataset factory", "statement": "Creating a dataset without columns from a csv path, or with uid or iid among the columns, raises; otherwise the in-memory backend is used exactly when requested for a non-sqlite path and it fits in memory; the caller's column list is not modified.", "quantifier": "every path, column list and flag combination", "why_tests_cant": "A decision table over unbounded paths and lists.", "anchors": ["DRecPy/Dataset/dataset_factory.py:InteractionsDatasetFactory.__new__"]}
{"id": "C32", "title": "random_split", "statement": "The train and test sets of random_split are disjoint, together contain every record once, the test set has exactly floor(n*ratio) records (the product in floating point), and it raises exactly when this number is 0 (or the ratio is outside (0,1)).", "quantifier": "every in-memory dataset of at most 2^53 records, every ratio and random outcome", "why_tests_cant": "All seeds and sizes.", "anchors": ["DRecPy/Evaluation/Splits/random_split.py:random_split"]}
{"id": "C33", "title": "leave_k_out with fixed k", "statement": "Users with fewer than min_user_interactions records are in neither set; every other user with more than k records has exactly k of them in test and the rest in train; a user with at most k records is entirely in train; the sets are disjoint and every user of the test set is in the train set.", "quantifier": "every dataset, k, minimum and random outcome", "why_tests_cant": "All datasets and random outcomes.", "anchors": ["DRecPy/Evaluation/Splits/leave_k_out.py:leave_k_out,_leave_k_out_user_fixed,_leave_k_out_user"]}
{"id": "C34", "title": "leave_k_out with a ratio", "statement": "With a ratio k in (0,1) every kept user has floor(n_u*k) records in test and the rest in train, so every user of the test set is also in the train set.", "quantifier": "every dataset, ratio and random outcome", "why_tests_cant": "All datasets and ratios.", "anchors": ["DRecPy/Evaluation/Splits/leave_k_out.py:leave_k_out,_leave_k_out_user_ratio"]}
{"id": "C35", "title": "leave_k_out takes the latest records", "statement": "With last_timestamps=True the k test records of a user are the ones with the k largest timestamps, whatever order the records appear in.", "quantifier": "every order of the records", "why_tests_cant": "Depends on the order in which records are met; tests use sorted data.", "anchors": ["DRecPy/Evaluation/Splits/leave_k_out.py:_leave_k_out_user"]}
{"id": "C36", "title": "splits do not depend on thread scheduling", "statement": "For every interleaving of the worker threads the resulting train and test sets are the same, and no update of the shared lists or the task counter is lost.", "quantifier": "every number of workers, every interleaving", "why_tests_cant": "Schedules cannot be enumerated by tests.", "anchors": ["DRecPy/Evaluation/Splits/leave_k_out.py:leave_k_out,n_tasks_lock,test_lock,train_rem_lock", "DRecPy/Evaluation/Splits/matrix_split.py:matrix_split,_matrix_split_user"]}
{"id": "C37", "title": "splits always finish and honour string ids", "statement": "leave_k_out and matrix_split terminate and split every user, also when user ids are strings.", "quantifier": "every dataset", "why_tests_cant": "A worker failure only shows as a missing counter increment; the waiting loop then never ends.", "anchors": ["DRecPy/Evaluation/Splits/leave_k_out.py:leave_k_out,_leave_k_out_user_fixed", "DRecPy/Evaluation/Splits/matrix_split.py:matrix_split"]}
{"id": "C38", "title": "matrix_split", "statement": "A record is in the test set exactly when its user and its item were both drawn, its user has at least the minimum number of records, and not all records of that user were drawn; every other record of a user with enough records is in train; so each test user is also in train.", "quantifier": "every dataset, ratios and random outcome", "why_tests_cant": "All datasets and random outcomes.", "anchors": ["DRecPy/Evaluation/Splits/matrix_split.py:matrix_split,_matrix_split_user"]}
{"id": "C39", "title": "precision, recall and hit ratio lie between 0 and 1", "statement": "They are in [0,1]; recall and hit ratio never decrease when k grows; each equals 0 exactly when no relevant item is among the first k; they do not depend on the order of the first k items; the divisions by zero are exactly the empty cases.", "quantifier": "every list of recommendations, relevant list and k", "why_tests_cant": "All lists including repetitions.", "anchors": ["DRecPy/Evaluation/Metrics/ranking.py:Precision,Recall,HitRatio"]}
{"id": "C40", "title": "NDCG is normalised", "statement": "NDCG is between 0 and 1 and equals 1 for the ideal ordering, for recommendations without repetition among the first k, each with a relevancy, and non-negative relevancies with some positive one; a missing relevancy among the first k raises.", "quantifier": "every recommendation list, relevancy map and k other than 0, in real arithmetic", "why_tests_cant": "Real-valued inequality over all permutations (rearrangement).", "anchors": ["DRecPy/Evaluation/Metrics/ranking.py:DCG,NDCG"]}
{"id": "C41", "title": "reciprocal rank and average precision", "statement": "Reciprocal rank is 1/p with p the first position of the item within the first k and 0 otherwise; average precision is in [0,1] when the relevant items are distinct, is 1 when the list starts with all relevant items, and repeated recommendations add nothing.", "quantifier": "every list and k", "why_tests_cant": "All lists.", "anchors": ["DRecPy/Evaluation/Metrics/ranking.py:ReciprocalRank,AveragePrecision"]}
{"id": "C42", "title": "F-score is the weighted harmonic mean", "statement": "FScore lies between min and max of precision and recall, is symmetric in them for beta=1, approaches them consistently with beta, and is undefined (raises) exactly when both are zero or a list is empty.", "quantifier": "every list, k and beta > 0", "why_tests_cant": "Algebraic law over rationals.", "anchors": ["DRecPy/Evaluation/Metrics/ranking.py:FScore"]}
{"id": "C43", "title": "error metrics", "statement": "MSE, RMSE and MAE are non-negative, zero exactly for perfect predictions, symmetric, MAE <= RMSE, and RMSE squared is MSE.", "quantifier": "every pair of equally long non-empty lists", "why_tests_cant": "Real-valued inequalities over lists of any length.", "anchors": ["DRecPy/Evaluation/Metrics/regression.py:MSE,RMSE,MAE"]}
{"id": "C44", "title": "evaluation results do not depend on scheduling", "statement": "ranking_evaluation and recommendation_evaluation report for each metric and k the mean, rounded to four decimals, over the users whose metric could be computed (0 when there is none), for every interleaving of the worker threads.", "quantifier": "every interleaving, every set of users, metrics with different names, exact sums", "why_tests_cant": "Schedules cannot be enumerated by tests.", "anchors": ["DRecPy/Evaluation/Processes/ranking_evaluation.py:ranking_evaluation,_ranking_evaluation_user,metric_lock", "DRecPy/Evaluation/Processes/recommendation_evaluation.py:recommendation_evaluation"]}
{"id": "C45", "title": "the evaluation progress loop ends", "statement": "The waiting loop of the evaluation functions ends for every input, also when the evaluation of some user fails.", "quantifier": "every set of failing users and every interleaving", "why_tests_cant": "Non-termination is only visible with failing workers.", "anchors": ["DRecPy/Evaluation/Processes/ranking_evaluation.py:_ranking_evaluation_user", "DRecPy/Evaluation/Processes/recommendation_evaluation.py:_recommendation_evaluation_user"]}
{"id": "C46", "title": "generated negatives", "statement": "With generate_negative_pairs the sampled negatives are pairwise distinct, none of them is a positive item of the user in train or test, there are exactly n_neg_interactions of them, and the sampling loop can always reach that number.", "quantifier": "every user history and every random outcome", "why_tests_cant": "A rejection loop over random outcomes.", "anchors": ["DRecPy/Evaluation/Processes/ranking_evaluation.py:__ranking_evaluation_user"]}
{"id": "C47", "title": "generated negatives are items of the dataset", "statement": "Every generated negative is a raw item id known to the model.", "quantifier": "every dataset", "why_tests_cant": "Depends on the raw ids in the data, tests use ids that coincide with internal ids.", "anchors": ["DRecPy/Evaluation/Processes/ranking_evaluation.py:__ranking_evaluation_user"]}
{"id": "C48", "title": "the best item handed to single-item metrics is the user's favourite", "statement": "The item used as the relevant one for reciprocal rank has the highest interaction value among the sampled positives.", "quantifier": "every positive list", "why_tests_cant": "All lists.", "anchors": ["DRecPy/Evaluation/Processes/ranking_evaluation.py:__ranking_evaluation_user", "DRecPy/Evaluation/Processes/recommendation_evaluation.py:_recommendation_evaluation_user"]}
{"id": "C49", "title": "every metric instance gets its own result", "statement": "Evaluating several metric instances reports for each the value it has when evaluated alone.", "quantifier": "every list of metric instances", "why_tests_cant": "Collisions depend on the combination of instances.", "anchors": ["DRecPy/Evaluation/Processes/ranking_evaluation.py:ranking_evaluation", "DRecPy/Evaluation/Metrics/metric_abc.py:MetricABC", "DRecPy/Evaluation/Processes/recommendation_evaluation.py:recommendation_evaluation"]}
{"id": "C50", "title": "predictive evaluation counts the right pairs", "statement": "The metric is computed on exactly the first n_test_predictions records whose prediction is available (missing predictions counted as 0 when requested), pairing each prediction with the interaction of its own record.", "quantifier": "every dataset, model and option combination", "why_tests_cant": "All models seen as arbitrary functions.", "anchors": ["DRecPy/Evaluation/Processes/predictive_evaluation.py:predictive_evaluation"]}
{"id": "C51", "title": "recommend returns the best items", "statement": "recommend(user, n) returns at most n items, all distinct, in non-increasing score order, none of them seen by the user when novelty is on, all at or above the threshold, and no omitted eligible item scores higher than a returned one; with fewer than n results all eligible items are returned.", "quantifier": "every scoring function, user, n and threshold", "why_tests_cant": "Quantifies over all models seen as scoring functions.", "anchors": ["DRecPy/Recommender/recommender_abc.py:recommend,_recommend,_rank"]}
{"id": "C52", "title": "rank orders the given items", "statement": "rank(user, items) returns only given items that are known, in non-increasing score order; with novelty it omits exactly the items the user already has; unknown items are skipped or raise as requested; asking for more than the number of known items raises.", "quantifier": "every scoring function and item list", "why_tests_cant": "All models and lists.", "anchors": ["DRecPy/Recommender/recommender_abc.py:rank,_rank"]}
{"id": "C53", "title": "predict with skip_errors never raises and never invents a value", "statement": "With skip_errors=True predict returns None for unknown users, unknown items or when the model has no value, and a number otherwise; with skip_errors=False the former cases raise.", "quantifier": "every model and every pair of ids", "why_tests_cant": "All failure modes of arbitrary models.", "anchors": ["DRecPy/Recommender/recommender_abc.py:predict", "DRecPy/Recommender/cdae.py:_predict"]}
{"id": "C54", "title": "early stopping picks an epoch with the best value", "statement": "The epoch chosen by MaxValidationValueRule is one at which the requested metric attained its maximum over all validated epochs, the first such one.", "quantifier": "every history of validation results", "why_tests_cant": "Histories of any length and any metric naming.", "anchors": ["DRecPy/Recommender/EarlyStopping/max_validation_value_rule.py:_compute_best_epoch", "DRecPy/Recommender/EarlyStopping/early_stopping_rule_abc.py:compute", "DRecPy/Evaluation/loss_tracker.py:add_epoch_callback_result"]}
{"id": "C55", "title": "early stopping restores the weights of the chosen epoch", "statement": "After fitting with an early stopping rule the model's weights are those it had at the end of the chosen epoch.", "quantifier": "every training history and every kind of trainable", "why_tests_cant": "Aliasing between stored and live weights over all histories.", "anchors": ["DRecPy/Recommender/recommender_abc.py:_store_epoch_weights,_revert_weights,fit"]}
{"id": "C56", "title": "fit completes for every number of epochs", "statement": "fit with an early stopping rule completes for every number of epochs and every validation history, including epochs=0 and missing validation results.", "quantifier": "every number of epochs, frequency and history", "why_tests_cant": "The failure needs a particular relation between epochs, frequency and history.", "anchors": ["DRecPy/Recommender/recommender_abc.py:fit"]}
{"id": "C57", "title": "fit(copy_dataset=True) leaves the dataset alone", "statement": "With copy_dataset=True the model is fitted and the dataset passed in is not modified.", "quantifier": "every dataset", "why_tests_cant": "Depends on a frame condition for every dataset.", "anchors": ["DRecPy/Recommender/recommender_abc.py:fit"]}
{"id": "C58", "title": "the loss tracker reports the mean", "statement": "The average reported by the loss tracker is the arithmetic mean of the losses added since the last reset and the list of callback epochs is strictly increasing.", "quantifier": "every sequence of losses and callbacks", "why_tests_cant": "Incremental mean over sequences of any length.", "anchors": ["DRecPy/Evaluation/loss_tracker.py:LossTracker"]}
{"id": "C59", "title": "fitting again forgets the previous data", "statement": "Fitting an already fitted KNN model on a second dataset gives the same model as fitting a new model on it.", "quantifier": "every pair of datasets", "why_tests_cant": "Left-over state depends on both datasets.", "anchors": ["DRecPy/Recommender/Baseline/base_knn.py:_pre_fit", "DRecPy/Recommender/Baseline/user_knn.py:_compute_similarities,_compute_neighbours", "DRecPy/Recommender/Baseline/item_knn.py:_compute_similarities"]}
{"id": "C60", "title": "similarities are symmetric and bounded", "statement": "Cosine, CF-cosine, adjusted cosine and Pearson similarity are in [-1,1], Jaccard and MSD in [0,1], all are symmetric, and every row has similarity 1 with itself whenever the value is defined.", "quantifier": "every rating matrix", "why_tests_cant": "Cauchy-Schwarz over matrices of any size.", "anchors": ["DRecPy/Recommender/Baseline/similarity.py:cosine_sim,cosine_sim_cf,adjusted_cosine_sim,jaccard_sim,pearson_corr,msd"]}
{"id": "C61", "title": "the merge walk finds exactly the co-rated items", "statement": "The two-pointer walk used by CF-cosine, Pearson, MSD and Jaccard visits exactly the items rated by both rows, each once.", "quantifier": "every pair of sorted rating rows", "why_tests_cant": "Loop correctness over lists of any length.", "anchors": ["DRecPy/Recommender/Baseline/similarity.py:cosine_sim_cf,pearson_corr,msd,iterative_jacc"]}
{"id": "C62", "title": "neighbourhoods", "statement": "Every neighbour list has at most k entries, contains no self, only positive similarities backed by at least m co-ratings, is sorted, and no omitted candidate has a larger similarity; sufficient co-ratings make the relation symmetric in value.", "quantifier": "every dataset and every k, m, shrinkage", "why_tests_cant": "All datasets.", "anchors": ["DRecPy/Recommender/Baseline/user_knn.py:_compute_similarities,_compute_neighbours", "DRecPy/Recommender/Baseline/item_knn.py:_compute_similarities,_compute_neighbours", "DRecPy/Recommender/Baseline/base_knn.py:_get_sim"]}
{"id": "C63", "title": "KNN predictions stay within the observed range", "statement": "A KNN prediction lies between the smallest and the largest interaction used, so it never leaves the range of observed interactions; it is None exactly when there is no usable neighbour (and averages are off).", "quantifier": "every neighbourhood and interaction values", "why_tests_cant": "Convexity over lists of any length.", "anchors": ["DRecPy/Recommender/Baseline/aggregation.py:mean,weighted_mean", "DRecPy/Recommender/Baseline/base_knn.py:_predict"]}
{"id": "C64", "title": "KNN rank agrees with predict", "statement": "The score that rank and recommend attach to an item equals what predict returns for it, and an item is ranked exactly when predict has a value.", "quantifier": "every dataset, user and item", "why_tests_cant": "Two independent implementations of the same quantity.", "anchors": ["DRecPy/Recommender/Baseline/user_knn.py:_rank", "DRecPy/Recommender/Baseline/item_knn.py:_rank", "DRecPy/Recommender/Baseline/base_knn.py:_predict"]}
{"id": "C65", "title": "standardising interaction values", "statement": "Standardising maps every training target, including the 0 of sampled negatives, into [0,1], is monotone, and rescaling inverts it.", "quantifier": "every dataset", "why_tests_cant": "Depends on the extreme values in the data.", "anchors": ["DRecPy/Recommender/recommender_abc.py:_standardize_value,_rescale_value,fit", "DRecPy/Recommender/dmf.py:_sample_batch"]}
{"id": "C66", "title": "model specific ranking respects the item list", "statement": "rank(user, items) of CDAE and Caser returns only items from the given list.", "quantifier": "every model output and item list", "why_tests_cant": "All score vectors and lists.", "anchors": ["DRecPy/Recommender/cdae.py:_rank", "DRecPy/Recommender/caser.py:_rank"]}
{"id": "C67", "title": "PointSampler returns what it promises", "statement": "sample(n) returns n triples; a positive triple is a record of the dataset at or above the threshold with its own interaction value; a negative triple has value 0 and is not a positive pair of the dataset.", "quantifier": "every dataset, threshold and random outcome", "why_tests_cant": "All random outcomes.", "anchors": ["DRecPy/Sampler/point_sampler.py:sample,sample_positive,sample_negative", "DRecPy/Dataset/mem_dataset.py:select_random_generator,null_interaction_pair_generator"]}
{"id": "C68", "title": "negative pair generator covers exactly the non-positive pairs", "statement": "The generator can yield every pair (user, item) that is not positive, never a positive one, and it can make progress exactly when such a pair exists.", "quantifier": "every dataset, threshold and random outcome", "why_tests_cant": "All random outcomes, including non-termination.", "anchors": ["DRecPy/Dataset/mem_dataset.py:null_interaction_pair_generator", "DRecPy/Dataset/db_dataset.py:null_interaction_pair_generator"]}
{"id": "C69", "title": "ListSampler negatives", "statement": "The negative ids of a sampled sequence are pairwise distinct ids of the dataset, none of them occurs in the positives of the group, and there are neg_ratio per target.", "quantifier": "every dataset and random outcome", "why_tests_cant": "All random outcomes.", "anchors": ["DRecPy/Sampler/list_sampler.py:sample_group_records"]}
{"id": "C70", "title": "ListSampler sequence shape", "statement": "Each sampled triple has between min and max positive records, exactly n_targets targets, consecutive in the sort order with the targets right after the positives.", "quantifier": "every dataset, parameters and random outcome", "why_tests_cant": "Depends on the relation between group size and three parameters.", "anchors": ["DRecPy/Sampler/list_sampler.py:sample_group_records"]}
{"id": "C71", "title": "random record generator", "statement": "select_random_generator yields only records that satisfy the query, every such record can be yielded, and it fails exactly when there is none.", "quantifier": "every in-memory dataset, query and random outcome", "why_tests_cant": "All random outcomes.", "anchors": ["DRecPy/Dataset/mem_dataset.py:select_random_generator,_select_random_generator", "DRecPy/Dataset/db_dataset.py:_select_random_generator"]}
{"id": "C72", "title": "generated train and test files belong together", "statement": "Whatever point the process dies at while the built-in train/test split is being generated, a later call of get_train_dataset and get_test_dataset returns a complete and disjoint pair.", "quantifier": "every crash point", "why_tests_cant": "Crash points between two file writes.", "anchors": ["DRecPy/Dataset/integrated_datasets.py:get_train_dataset,get_test_dataset"]}
{"id": "C73", "title": "what a user's evaluation is computed on", "statement": "A user is skipped exactly when there are fewer positive test records than n_pos_interactions, when the requested negatives cannot be generated, or when there is nothing to rank. Otherwise the relevant items are those of n_pos_interactions of the user's positive test records (all of them when none is given), the negatives are as many as the count or the rounded down share asked for, the model ranks exactly those items, and the ranked list is what the metrics get.", "quantifier": "every test set and training set with integer user and item ids, every model, argument combination and random outcome", "why_tests_cant": "The tests fix one seed and one dataset, and compare rounded metric values only.", "anchors": ["DRecPy/Evaluation/Processes/ranking_evaluation.py:__ranking_evaluation_user", "DRecPy/Evaluation/Processes/recommendation_evaluation.py:_recommendation_evaluation_user"]}
{"id": "C74", "title": "import with a delimiter of several characters", "statement": "A csv file with a delimiter of more than one character is imported into the database with every line read as the fields between the delimiters.", "quantifier": "every file content and every delimiter", "why_tests_cant": "Depends on which characters occur in the fields, over all field contents.", "anchors": ["DRecPy/Dataset/db_dataset.py:_load_from_csv"]}
{"id": "C75", "title": "training stops when the rule asks for it", "statement": "With an early stopping rule, fit trains exactly until the first checked epoch at which the rule asks to stop, and through all epochs when it never asks.", "quantifier": "every rule, frequency, number of epochs and validation history", "why_tests_cant": "Arbitrary rules and histories; tests only use a rule that never stops.", "anchors": ["DRecPy/Recommender/recommender_abc.py:fit", "DRecPy/Recommender/EarlyStopping/early_stopping_rule_abc.py:stop_training"]}
{"id": "C76", "title": "save as sqlite then open returns the same records", "statement": "Saving a database dataset to a .sqlite file returns, and a dataset opened from that file shows the same records with the same values, with record ids counting from 0; internal ids are not in the file and no dataset is changed by saving.", "quantifier": "every history of operations before saving, every dataset made in it, every chunk size", "why_tests_cant": "The state saved is the result of an arbitrary history, and the chunk size decides when rows are written.", "anchors": ["DRecPy/Dataset/db_dataset.py:save", "DRecPy/Dataset/db_dataset.py:_copy_to_new_db", "DRecPy/Dataset/db_dataset.py:_build_table"]}
{"id": "C77", "title": "save without a path writes back to the opened file", "statement": "Calling save() without a path on a dataset opened from a .sqlite file, when no other dataset uses the file, replaces the content of the file by the records of the dataset.", "quantifier": "every file and every history of operations since it was opened", "why_tests_cant": "Depends on every possible history of the open dataset.", "anchors": ["DRecPy/Dataset/db_dataset.py:save", "DRecPy/Dataset/db_dataset.py:_load_from_db"]}
{"id": "C78", "title": "fitting again gives the weights of a new model", "statement": "Fitting a model object that has been fitted before leaves its networks with the weights that fitting a new object with the same data and arguments would give.", "quantifier": "every number of earlier fits with any data and arguments, every training procedure and early stopping rule", "why_tests_cant": "The earlier fits are arbitrary and their registered variables stay behind; tests fit each object once.", "anchors": ["DRecPy/Recommender/recommender_abc.py:fit", "DRecPy/Recommender/recommender_abc.py:_register_trainable", "DRecPy/Recommender/recommender_abc.py:_update_weights", "DRecPy/Recommender/recommender_abc.py:_store_epoch_weights", "DRecPy/Recommender/recommender_abc.py:_revert_weights", "DRecPy/Recommender/cdae.py:_pre_fit", "DRecPy/Recommender/caser.py:_pre_fit", "DRecPy/Recommender/dmf.py:_pre_fit"]}
{"id": "C79", "title": "DMF predictions lie in the range of the interactions", "statement": "Every value predicted by a fitted DMF lies between the smallest interaction of the training data (0 when that is 1) and the largest one.", "quantifier": "every network and every weights, every training dataset, every state of the dataset, every user and item", "why_tests_cant": "Depends on the weights, which training leaves anywhere; needs Cauchy-Schwarz and not a sample of predictions.", "anchors": ["DRecPy/Recommender/dmf.py:_predict_batch", "DRecPy/Recommender/dmf.py:_predict", "DRecPy/Recommender/recommender_abc.py:_rescale_value", "DRecPy/Recommender/recommender_abc.py:fit"]}
{"id": "C80", "title": "a DMF that has learned its targets predicts the interactions", "statement": "If the networks of DMF give exactly the training target of an interaction, then predict returns that interaction, with and without use_nce.", "quantifier": "every network, every interaction range and value, both settings of use_nce", "why_tests_cant": "No trained network reaches its targets exactly, so tests compare with a tolerance or only the type.", "anchors": ["DRecPy/Recommender/dmf.py:_sample_batch", "DRecPy/Recommender/dmf.py:_predict", "DRecPy/Recommender/recommender_abc.py:_standardize_value", "DRecPy/Recommender/recommender_abc.py:_rescale_value"]}
{"id": "C81", "title": "CDAE gives one score per item between 0 and 1", "statement": "For every known user CDAE computes one score per item, strictly between 0 and 1, and the scores depend only on the weights and on which interactions of that user reach the threshold.", "quantifier": "all weights, all datasets, all earlier vector requests, every threshold and user", "why_tests_cant": "Independence of other users, values and earlier requests is a statement about pairs of runs.", "anchors": ["DRecPy/Recommender/cdae.py:_reconstruct_for_predictions", "DRecPy/Recommender/cdae.py:_reconstruct", "DRecPy/Recommender/cdae.py:_predict", "DRecPy/Dataset/mem_dataset.py:select_user_interaction_vec"]}
{"id": "C82", "title": "CDAE learns the liked items from an unbiased corrupted input", "statement": "The vector CDAE learns to reconstruct has a 1 exactly for the items of which the user has a record that reaches the threshold; corrupting it never raises, only drops or scales entries, and keeps each entry on average.", "quantifier": "every dataset, threshold, corruption level and random draw", "why_tests_cant": "Random corruption and all thresholds cannot be enumerated; the mean is a statement about all draws.", "anchors": ["DRecPy/Recommender/cdae.py:_reconstruct_for_training"]}
{"id": "C83", "title": "DMF networks get vectors of the right size for every sampled pair", "statement": "Every pair in a training batch of DMF, and every known pair to predict, has internal ids in range, and the vectors fed to the networks are the interactions of the user and of the item with the sizes the networks were built for.", "quantifier": "every dataset, threshold, random outcome and earlier requests", "why_tests_cant": "The random pairs and the state of the caches vary.", "anchors": ["DRecPy/Recommender/dmf.py:_sample_batch", "DRecPy/Recommender/dmf.py:_preprocess_input", "DRecPy/Sampler/point_sampler.py:sample", "DRecPy/Dataset/mem_dataset.py:select_item_interaction_vec"]}
{"id": "C84", "title": "Caser computes scores for every user and configuration", "statement": "Caser can be trained on every dataset, its network gives one prediction per sample and label, and ranking gives one score per item for every known user.", "quantifier": "all values of L, T, d, n_v, n_h and neg_ratio, every dataset and user, every random outcome", "why_tests_cant": "The shapes depend on all sizes together; tests use one configuration and users with enough records.", "anchors": ["DRecPy/Recommender/caser.py:_predict_batch_aux", "DRecPy/Recommender/caser.py:_rank", "DRecPy/Recommender/caser.py:_pre_fit", "DRecPy/Sampler/list_sampler.py:__init__"]}
{"id": "C85", "title": "the CDAE batch loss compares each reconstruction with its own vector", "statement": "The loss of a batch is the mean of the losses between each reconstruction and the vector of the same sample.", "quantifier": "every loss function, batch size and batch", "why_tests_cant": "Losses of trained models are not compared with expected values, and a batch of one is right.", "anchors": ["DRecPy/Recommender/cdae.py:_predict_batch", "DRecPy/Recommender/cdae.py:_reconstruct", "DRecPy/Recommender/cdae.py:_compute_batch_loss"]}
{"id": "C86", "title": "Caser training examples carry the right labels", "statement": "Each training example of Caser consists of L consecutive liked items of one user in sort order, directly followed by T targets labelled 1, and neg_ratio negatives per target labelled 0 that the user has not liked.", "quantifier": "every dataset, configuration and random outcome", "why_tests_cant": "The sampled windows and negatives are random.", "anchors": ["DRecPy/Recommender/caser.py:_sample_batch", "DRecPy/Recommender/caser.py:_predict_batch", "DRecPy/Sampler/list_sampler.py:sample_group_records"]}
{"id": "C87", "title": "the logged sparsity is the share of empty user-item pairs", "statement": "The sparsity that fit logs is the percentage of pairs of a user and an item without a record.", "quantifier": "every dataset", "why_tests_cant": "Log output is not tested, and repeated records are rare in samples.", "anchors": ["DRecPy/Recommender/recommender_abc.py:_log_initial_info", "DRecPy/Recommender/recommender_abc.py:fit"]}
{"id": "C88", "title": "Caser recommends from the last liked items", "statement": "The items from which Caser computes the recommendations of a user are the last L liked items of the user in sort order, as in training.", "quantifier": "every dataset, threshold, sort column, user and L", "why_tests_cant": "Which items are fed to the network is not visible from outside.", "anchors": ["DRecPy/Recommender/caser.py:_rank", "DRecPy/Recommender/caser.py:_pre_fit"]}
{"id": "C89", "title": "datasets need user, item and interaction columns", "statement": "Without a user, item or interaction column no dataset is created: importing a csv file whose given columns lack one raises in both backends, and so does reading a dataframe that lacks a column named by a label.", "quantifier": "every file content, column list, dataframe and label", "why_tests_cant": "The raise must hold for every content and every combination of labels, tests try one missing column.", "anchors": ["DRecPy/Dataset/db_dataset.py:_load_from_csv,_build_table", "DRecPy/Dataset/mem_dataset.py:__init__"]}
{"id": "C90", "title": "read_df keeps the rows of the dataframe", "statement": "For every dataframe and every three different columns of it, read_df with these columns as labels gives a dataset with the rows of the dataframe in order, whose user, item and interaction columns are the named columns and whose other columns are unchanged (missing texts become empty), and the dataframe itself is not changed.", "quantifier": "every dataframe and every choice of labels", "why_tests_cant": "Labels may coincide with the standard names of other columns; tests use fresh or standard names.", "anchors": ["DRecPy/Dataset/dataset_factory.py:read_df", "DRecPy/Dataset/mem_dataset.py:__init__"]}
{"id": "C91", "title": "record ids of a dataset read from a dataframe identify its records", "statement": "In a dataset made by read_df every record has its own record id, so dropping one record id removes at most one record.", "quantifier": "every dataframe, with any index", "why_tests_cant": "Dataframes in tests have the default index.", "anchors": ["DRecPy/Dataset/dataset_factory.py:read_df", "DRecPy/Dataset/mem_dataset.py:drop,__init__"]}
{"id": "C92", "title": "a metric is called with the arguments it declares", "statement": "For every metric, whatever its parameters and its local variables are called, the evaluation processes call it with exactly the arguments it declares (ranked list, relevant items, best item, relevancies, k) and with the values belonging to the user.", "quantifier": "every metric, user and k", "why_tests_cant": "The dispatch looks at all local variable names of the method; the metrics of the library happen not to clash.", "anchors": ["DRecPy/Evaluation/Processes/ranking_evaluation.py:__ranking_evaluation_user", "DRecPy/Evaluation/Processes/recommendation_evaluation.py:_recommendation_evaluation_user"]}
{"id": "C93", "title": "every evaluated user counts in the reported mean", "statement": "The value reported for a metric is the mean over all users whose evaluation reached the metrics; a user for whom nothing relevant was found counts as zero.", "quantifier": "every list of users, every k, every interleaving of the tasks", "why_tests_cant": "Users without a hit disappear from the mean only when a metric divides by zero; tests check reported values on data where every user has a hit.", "anchors": ["DRecPy/Evaluation/Processes/ranking_evaluation.py:__ranking_evaluation_user", "DRecPy/Evaluation/Metrics/ranking.py:FScore,Precision"]}
{"id": "C94", "title": "value generators hand out every record once", "statement": "Whatever mix of next calls and (left or completed) loops a program uses on the generator returned by values(), every record is handed out at most once and in order, a completed loop has handed out all, the generator counts as open until then or until it is closed, and reading on after the end gives nothing; both backends agree.", "quantifier": "every dataset content and every sequence of next, loops and close", "why_tests_cant": "Tests read generators once from start to end.", "anchors": ["DRecPy/Dataset/db_dataset.py:values", "DRecPy/Dataset/mem_dataset.py:values"]}
{"id": "C95", "title": "texts survive being stored and read again", "statement": "A built-in dataset gives the same texts on every call: what is read after the download is the published text, and what a later call reads from the generated files is what the first call returned; both backends read a file in the encoding given.", "quantifier": "every content, encoding of the built-in datasets and backend", "why_tests_cant": "Test files are ASCII.", "anchors": ["DRecPy/Dataset/integrated_datasets.py:download_dataset,get_dataset,get_train_dataset", "DRecPy/Dataset/db_dataset.py:_load_from_csv", "DRecPy/Dataset/mem_dataset.py:__init__,save"]}
{"id": "C96", "title": "closing a database dataset twice is harmless", "statement": "Calling close() on a database dataset that is closed already changes nothing and does not raise.", "quantifier": "every history of operations on all datasets of a file, every dataset", "why_tests_cant": "Tests close every dataset once; what happens depends on which other datasets are open.", "anchors": ["DRecPy/Dataset/db_dataset.py:close,_close"]}
{"id": "C97", "title": "a closed database dataset changes nothing", "statement": "Using a closed database dataset never changes what the open datasets of the file show, and leaves no file behind once all datasets are closed.", "quantifier": "every history of operations, every closed dataset and every reading operation on it", "why_tests_cant": "Needs a closed dataset with a filter that is read several times while exactly one other dataset is open.", "anchors": ["DRecPy/Dataset/db_dataset.py:_optimize_states,_open_cursor,_open_connection,close"]}
{"id": "C98", "title": "datasets on one database file do not lock each other out", "statement": "No operation on a database dataset fails because of a lock held by another dataset on the same file, including datasets with suspended generators.", "quantifier": "every history of calls on any number of datasets sharing a file", "why_tests_cant": "Locks depend on which cursors and transactions of other connections are open; tests use one dataset at a time.", "anchors": ["DRecPy/Dataset/db_dataset.py:apply,values,_select_random_generator,_optimize_states,assign_internal_ids"]}
{"id": "C99", "title": "arguments of the evaluation processes", "statement": "Calls with numbers of users, interactions or cut-offs that make no sense (not positive, no cut-off at all, negatives to be generated without a number) are rejected before a user is evaluated. All others evaluate as many users as asked for, or all. Leaving out the test set, passing the training set, or passing a copy of it all give the same result.", "quantifier": "every model, dataset, argument combination and random draws", "why_tests_cant": "Combinations of optional arguments; tests pass a few fixed ones.", "anchors": ["DRecPy/Evaluation/Processes/ranking_evaluation.py:ranking_evaluation", "DRecPy/Evaluation/Processes/recommendation_evaluation.py:recommendation_evaluation"]}
{"id": "C100", "title": "parallel selections on a database dataset", "statement": "When several threads select from one database dataset and read their selections, as the splits and the evaluation processes do, each thread gets exactly the records of the dataset that satisfy its query, and no dataset changes its records.", "quantifier": "every admissible history before, every number of threads and queries, every interleaving of their steps", "why_tests_cant": "The dataset object has no lock; the outcome depends on the order in which steps of different threads happen and on a counter hidden in the dataset.", "anchors": ["DRecPy/Dataset/db_dataset.py:select,copy,_record_interaction,_optimize_states", "DRecPy/Evaluation/Splits/leave_k_out.py:leave_k_out", "DRecPy/Evaluation/Splits/matrix_split.py:matrix_split"]}
{"id": "C101", "title": "seeded sampling is valid and unbiased", "statement": "With a seed, a PointSampler still returns only records of the dataset and pairs without record, and every sequence of such triples is possible: whether a positive or a negative sample is drawn has no influence on which one.", "quantifier": "every dataset with internal ids, neg_ratio, number of samples, and every stream of random words, hence every seed", "why_tests_cant": "The bias is in the joint distribution of three generators that share a seed; no single sample is wrong.", "anchors": ["DRecPy/Sampler/point_sampler.py:__init__,sample", "DRecPy/Dataset/mem_dataset.py:_select_random_generator,null_interaction_pair_generator"]}
{"id": "C102", "title": "splits of a database dataset", "statement": "Splitting a database dataset with random_split, leave_k_out or matrix_split gives train and test sets with the same records as splitting the same records in memory, for the same random outcomes; the dataset that was split and all other datasets show what they showed before.", "quantifier": "every csv import, every history of operations on the datasets, all arguments and random outcomes, and every interleaving of the pool threads", "why_tests_cant": "The tasks share one dataset object whose hidden optimisation depends on how often and how far it was narrowed before, and on the interleaving; wrong results need a specific schedule or thousands of records.", "anchors": ["DRecPy/Evaluation/Splits/leave_k_out.py:leave_k_out,_leave_k_out_user_fixed,_leave_k_out_user_ratio,_leave_k_out_user", "DRecPy/Evaluation/Splits/matrix_split.py:matrix_split,_matrix_split_user", "DRecPy/Evaluation/Splits/random_split.py:random_split", "DRecPy/Dataset/db_dataset.py:select,unique,drop,copy,_record_interaction,_update_state,_optimize_states"]}
{"id": "C103", "title": "the same csv file in both backends", "statement": "Creating a dataset from a csv file in memory and as a database gives the same columns, the same records with the same record ids and the same values, and the two stay the same under every history of operations.", "quantifier": "every csv file and column list, every size of the import batches, with and without header, and every history of operations", "why_tests_cant": "Both imports decide on types in their own way (pandas from the whole column, the database from the first line), so differences need particular mixtures of cells.", "anchors": ["DRecPy/Dataset/dataset_factory.py:__new__", "DRecPy/Dataset/mem_dataset.py:__init__", "DRecPy/Dataset/db_dataset.py:__init__,_load_from_csv"]}
{"id": "C104", "title": "id indexes", "statement": "Assigning internal ids never raises because of an index, and after every operation every table of the database has its indexes on the internal ids.", "quantifier": "every history of operations on all datasets of a database", "why_tests_cant": "Whether an index is there depends on the whole history; the model without indexes would hide a missing one.", "anchors": ["DRecPy/Dataset/db_dataset.py:assign_internal_ids,_build_indexes,_create_internal_id_indexes,_drop_internal_id_indexes"]}
{"id": "C105", "title": "better rankings never score lower", "statement": "Exchanging an irrelevant item with an item further down the list never lowers precision, recall, F-score, hit ratio or average precision, for every k; the same holds for reciprocal rank when the sought item is not moved down, and for DCG (and, with relevancies that are not negative, NDCG) when the item moved up has at least the relevancy of the item moved down. A metric that is defined before is defined afterwards.", "quantifier": "all lists, relevant items, relevancies, values of k and weights beta, and every sequence of such exchanges", "why_tests_cant": "Monotonicity relates pairs of inputs; the number of pairs of rankings grows with the square of the factorial of their length.", "anchors": ["DRecPy/Evaluation/Metrics/ranking.py:Precision.__call__,Recall.__call__,FScore.__call__,HitRatio.__call__,ReciprocalRank.__call__,AveragePrecision.__call__,DCG.__call__,NDCG.__call__"]}
{"id": "C106", "title": "recommending, ranking and predicting agree", "statement": "Asking for fewer recommendations gives the front part of the longer list; ranking all items, listed in any order, gives the same list as recommending; and the score of every recommended or ranked item is what predict returns for it.", "quantifier": "every dataset, model output (ties included), user, n, novelty and threshold", "why_tests_cant": "Ties and the order in which sets are iterated only show for particular score vectors; the claim compares two calls.", "anchors": ["DRecPy/Recommender/recommender_abc.py:recommend,_recommend,rank,_rank,predict", "DRecPy/Recommender/cdae.py:_rank,_predict", "DRecPy/Recommender/caser.py:_rank"]}
{"id": "C107", "title": "a perfect model gets perfect scores", "statement": "When the model never ranks an item the user dislikes in the test set before one the user likes, ranking_evaluation gives average precision 1 to every evaluated user with relevant items, recall min(k,r)/r and precision min(k,r)/min(k,n) for r relevant items among n, hit ratio 1 once k >= r; and it reports exactly 1 for average precision, and for recall and hit ratio when k is large enough. When the model ranks by descending test interaction, NDCG is exactly 1 too.", "quantifier": "every model, dataset with one record per user and item, sampling outcome, interleaving of the tasks, number of positives and negatives, k", "why_tests_cant": "The claim is about the composition of sampling, generation of negatives, ranking, argument passing, metrics and averaging, for all random outcomes and interleavings.", "anchors": ["DRecPy/Evaluation/Processes/ranking_evaluation.py:ranking_evaluation,__ranking_evaluation_user", "DRecPy/Evaluation/Metrics/ranking.py"]}
{"id": "C108", "title": "log messages reach the console and the log file once", "statement": "Every message a verbose recommender logs appears exactly once on the console and, when the recommender was created with log_file, exactly once in the log file created for it and in no other file; a recommender that is not verbose logs nothing.", "quantifier": "every sequence of creating recommenders (any class, verbosity, log file, creation second) and logging", "why_tests_cant": "The loggers are process-wide objects looked up by name, so the number of handlers depends on every recommender created before.", "anchors": ["DRecPy/Recommender/recommender_abc.py:__init__,_info,_warn,_error"]}
{"id": "C109", "title": "evaluating a database test set gives what evaluating in memory gives", "statement": "ranking_evaluation and recommendation_evaluation of a test set held in a database give for every user exactly the outcome (recommended, relevant and best items, relevancies) that the evaluation of the same records held in memory gives for the same random draws, and so report the same results.", "quantifier": "every database dataset reached from a csv import by any admissible history of operations, every model, argument combination, random outcome, number of test users and interleaving of the concurrent user tasks", "why_tests_cant": "The tasks of all users work concurrently on selections of one database file that rewrite tables depending on how often they were read and narrowed; the agreement is between two implementations over all histories and interleavings.", "anchors": ["DRecPy/Evaluation/Processes/ranking_evaluation.py:ranking_evaluation,_ranking_evaluation_user,__ranking_evaluation_user", "DRecPy/Evaluation/Processes/recommendation_evaluation.py:recommendation_evaluation,_recommendation_evaluation_user", "DRecPy/Dataset/db_dataset.py:select,select_one,unique,values"]}
{"id": "C110", "title": "the order of the records does not matter to nearest neighbour recommenders", "statement": "A user or item nearest neighbour recommender fitted on the same records in a different order makes the same predictions, with every built-in similarity metric, and its complete recommendation list has the same items with the same scores.", "quantifier": "every dataset and permutation of its records, configuration (kind, k, m, shrinkage, metric, aggregation, averages), user and item, novelty and threshold", "why_tests_cant": "Reordering the rows changes every internal id, and with it every matrix, cache and neighbour list; only some ties make the ids visible in a prediction.", "anchors": ["DRecPy/Recommender/Baseline/user_knn.py:21-95", "DRecPy/Recommender/Baseline/item_knn.py:21-96", "DRecPy/Recommender/Baseline/base_knn.py:94-131", "DRecPy/Recommender/Baseline/similarity.py", "DRecPy/Dataset/mem_dataset.py:309-330"]}
{"id": "C111", "title": "predictive evaluation reports errors within the range of the interactions", "statement": "When test interactions and predictions lie between two bounds, the reported MAE and RMSE lie between 0 and the distance of the bounds, the MSE between 0 and its square; this applies to every nearest neighbour recommender tested on values in the range of its training interactions. A model that predicts every test interaction gets exactly 0; a reported MAE of 0 bounds every single error. Evaluating a database test set reports what evaluating the same records in memory reports, and there is a result exactly when some prediction counts.", "quantifier": "every model, dataset, number of predictions, handling of missing predictions, and database history", "why_tests_cant": "The claim composes id lookup, prediction, skipping of errors, counting, metric and rounding, for every model and dataset.", "anchors": ["DRecPy/Evaluation/Processes/predictive_evaluation.py:predictive_evaluation", "DRecPy/Evaluation/Metrics/regression.py", "DRecPy/Recommender/recommender_abc.py:predict", "DRecPy/Recommender/Baseline/base_knn.py:_predict", "DRecPy/Dataset/db_dataset.py:values"]}
{"id": "C112", "title": "user and item neighbourhoods are mirror images", "statement": "Exchanging users and items in the training records and using the other nearest neighbour class with the same arguments gives the same predictions with user and item exchanged; without skip_errors a call raises for one exactly when it raises for the other.", "quantifier": "every dataset, configuration and similarity metric, every user and item, known or not", "why_tests_cant": "A relation between two classes written separately, for all datasets, ties included.", "anchors": ["DRecPy/Recommender/Baseline/user_knn.py:21-67", "DRecPy/Recommender/Baseline/item_knn.py:21-67", "DRecPy/Recommender/Baseline/base_knn.py:_predict", "DRecPy/Dataset/mem_dataset.py:assign_internal_ids"]}
{"id": "C113", "title": "a built-in dataset is complete or downloaded again", "statement": "get_full_dataset returns the published file of a built-in dataset, also when an earlier process died during its download or an earlier answer of the server was not the archive: an incomplete download is repeated, never used.", "quantifier": "every dataset configuration, every content, every point at which the process may die, every order in which the files are moved, every sequence of later calls and answers", "why_tests_cant": "Deaths of the process at each of the many changes of the disk, and calls with a failing server, are not exercised by tests that download once.", "anchors": ["DRecPy/Dataset/integrated_datasets.py:download_dataset,get_dataset,get_full_dataset", "DRecPy/Dataset/file_utils.py:get_dataset_path,is_stored"]}
{"id": "C114", "title": "the training loss is smallest at the targets", "statement": "The loss of a training batch of DMF, CDAE and Caser compares each prediction with the target of its own sample, is never negative, decreases when a prediction moves towards its target, and is smallest when the predictions are the targets (up to the 1e-7 used by keras).", "quantifier": "every batch, every targets and predictions, all networks", "why_tests_cant": "A statement about a minimum over all real predictions; tests run a few epochs and look at the outcome.", "anchors": ["DRecPy/Recommender/dmf.py:_sample_batch,_compute_batch_loss", "DRecPy/Recommender/cdae.py:__init__,_compute_batch_loss,_compute_reg_loss", "DRecPy/Recommender/caser.py:_compute_batch_loss", "DRecPy/Recommender/recommender_abc.py:_compute_reg_loss"]}
{"id": "C115", "title": "held-out records can be found again", "statement": "After splitting a dataset with leave_k_out or matrix_split and fitting a recommender on the train part, the task of every user of the test part finishes; with novelty no item of the user's train records is recommended; and every held-out item of the user is recommended once enough items are asked for, so that recommendation_evaluation reports recall and hit ratio 1 for k at least the number of items.", "quantifier": "every dataset, number or share of held-out records, random outcome, interleaving of the split and evaluation tasks, scoring model, novelty setting and k", "why_tests_cant": "The claim composes splitting, id assignment, recommending, sampling, metrics and averaging, over all executions of both thread pools.", "anchors": ["DRecPy/Evaluation/Splits/leave_k_out.py", "DRecPy/Evaluation/Splits/matrix_split.py", "DRecPy/Recommender/recommender_abc.py:recommend,_recommend,_rank", "DRecPy/Evaluation/Processes/recommendation_evaluation.py:recommendation_evaluation,_recommendation_evaluation_user", "DRecPy/Dataset/mem_dataset.py:assign_internal_ids"]}
{"id": "C116", "title": "nearest neighbour recommenders do the same on a database dataset", "statement": "Assigning internal ids to a database dataset succeeds and gives the ids assigned in memory; fitting UserKNN or ItemKNN on it computes the neighbours computed in memory; and every later call of predict, rank or recommend, also when many are interleaved, returns or raises what the recommender fitted on the same records in memory returns or raises. ranking_evaluation (without generated negatives or with less than 5000 records) and recommendation_evaluation report the same results, also with recommenders that rank like the base class.", "quantifier": "every database dataset reached from a csv import by any admissible history, with integer or text ids, no missing users or items and interactions that are numbers; every configuration, similarity metric, request, and interleaving of requests and evaluation tasks", "why_tests_cant": "The fitted recommender asks the database through generated SQL, and tables are rewritten depending on what was asked before; the agreement is between two dataset implementations over all histories and interleavings.", "anchors": ["DRecPy/Recommender/Baseline/base_knn.py:_pre_fit,_predict", "DRecPy/Recommender/Baseline/user_knn.py", "DRecPy/Recommender/Baseline/item_knn.py", "DRecPy/Recommender/recommender_abc.py:fit,predict,rank,recommend,_rank,_recommend", "DRecPy/Dataset/db_dataset.py:assign_internal_ids,select,select_one,values,unique,user_to_uid,item_to_iid,iid_to_item"]}
{"id": "C117", "title": "interaction vectors when the interaction matrix does not fit into memory", "statement": "When building the interaction matrix raises MemoryError, select_user_interaction_vec and select_item_interaction_vec still return the interactions of the user or item; and no mixture of vector requests and apply, with memory running out at any of them, changes what the records are.", "quantifier": "every in-memory dataset with internal ids, every sequence of vector requests and changes of the interactions, every choice of the calls at which memory runs out", "why_tests_cant": "Tests do not run out of memory, and the fallback leaves a marker behind that every later call depends on.", "anchors": ["DRecPy/Dataset/mem_dataset.py:select_user_interaction_vec,select_item_interaction_vec,_build_interaction_matrix,apply"]}
{"id": "C118", "title": "only the order of the scores matters", "statement": "Two fitted recommenders with the ranking of the base class, or two CDAE or Caser recommenders, that order the items of every user in the same way rank and recommend the same items in the same order, and ranking_evaluation and recommendation_evaluation report the same results for both; a strictly increasing change of the scores of each user is of this kind. With a threshold this holds for thresholds that separate the same items.", "quantifier": "all datasets, models (raising and returning None included), users, items, novelty, numbers of items, evaluation arguments, metrics, random outcomes and interleavings", "why_tests_cant": "It compares two models over all score functions; ties and mixed None results only show for particular scores.", "anchors": ["DRecPy/Recommender/recommender_abc.py:recommend,_recommend,rank,_rank", "DRecPy/Recommender/cdae.py:_rank", "DRecPy/Recommender/caser.py:_rank", "DRecPy/Evaluation/Processes/ranking_evaluation.py", "DRecPy/Evaluation/Processes/recommendation_evaluation.py"]}
{"id": "C119", "title": "the names of users and items do not matter", "statement": "Renaming the users and items of a dataset, with different names staying different and possibly changing the type of the columns from text to numbers, gives its records the same internal ids and interaction vectors; a recommender fitted on it predicts the same values for the renamed users and items, and ranks and recommends the same items under their new names, with the same scores in the same order.", "quantifier": "every in-memory dataset and every injective renaming, every configuration of the nearest neighbour recommenders, every model output for the others (base class ranking, CDAE, Caser), known and unknown users and items, novelty, threshold and n", "why_tests_cant": "It relates the runs on two different datasets, for all possible renamings; hash orders and type dependent lookups, where it could break, differ between names.", "anchors": ["DRecPy/Dataset/mem_dataset.py:264-330", "DRecPy/Recommender/recommender_abc.py:354-461"]}
{"id": "C120", "title": "random table names", "statement": "When a hidden reduction or an apply that changes the type of a column creates a table, the name made from a random number is a valid SQL name that no other table of the file has, so the operation never fails because of the name; and an operation that does fail changes nothing.", "quantifier": "every random number random.random() can return, every sequence of reductions, applies and other operations of datasets on one file", "why_tests_cant": "Only one random number in ten thousand is printed in scientific notation, and names repeat only when the global generator is seeded again; no test draws enough names to see either.", "anchors": ["DRecPy/Dataset/db_dataset.py:525-558", "DRecPy/Dataset/db_dataset.py:807-849"]}
{"id": "C121", "title": "shares in floating point", "statement": "The number of records, users or items taken as a share of n (leave_k_out, random_split, matrix_split, n_neg_interactions) is the whole part of n times the ratio, although the product is computed in floating point.", "quantifier": "every count and every ratio between 0 and 1", "why_tests_cant": "Rounding changes the result for few pairs of counts and ratios (0.7 of 90 records are 62); tests use small counts and convenient ratios.", "anchors": ["DRecPy/Evaluation/Splits/leave_k_out.py:102", "DRecPy/Evaluation/Splits/random_split.py:33", "DRecPy/Evaluation/Splits/matrix_split.py:45-49", "DRecPy/Evaluation/Processes/ranking_evaluation.py:188"]}
{"id": "C122", "title": "results do not depend on the order of threads", "statement": "The metric values reported by ranking_evaluation and recommendation_evaluation do not depend on the order in which the worker threads add their values to the sums, although the sums are floating point numbers.", "quantifier": "every test set, model, list of metrics and every interleaving of the worker tasks", "why_tests_cant": "The order of threads varies from run to run, and different orders give different results only when the mean is next to a number halfway between two four-digit decimals.", "anchors": ["DRecPy/Evaluation/Processes/ranking_evaluation.py:92-133", "DRecPy/Evaluation/Processes/ranking_evaluation.py:227-246", "DRecPy/Evaluation/Processes/recommendation_evaluation.py:80-119", "DRecPy/Evaluation/Processes/recommendation_evaluation.py:168-189"]}
{"id": "C123", "title": "the SQL texts mean what was asked for", "statement": "The SQL statement a database dataset has put together from strings after any sequence of select, drop and unique, read as SQL, gives exactly the records the filters stand for, in the columns asked for, and with LIMIT 1 the first of them; the statement that creates a table creates exactly the columns of the dataset.", "quantifier": "every table, every sequence of filters with any conditions (integers, floats in any notation, texts), record ids and columns", "why_tests_cant": "The texts nest once per filter and the meaning depends on where AND, IN and GROUP BY end up; a text value with double quotes, or a column named like an SQL word, changes the statement, and tests use neither.", "anchors": ["DRecPy/Dataset/db_dataset.py:237-252", "DRecPy/Dataset/db_dataset.py:319-330", "DRecPy/Dataset/db_dataset.py:723-782", "DRecPy/Dataset/db_dataset.py:902-926"]}
{"id": "C124", "title": "the other SQL statements do what they stand for", "statement": "After any sequence of filters, the statements put together from strings for len, count_unique, max and min return the values of the records left; the statement that reduces the dataset's own table deletes exactly the other records, the one that leaves a shared table copies exactly the selected records with their columns; inserted records are stored as given; the statements of assign_internal_ids number users and items in the order of their first records; a lookup finds the first record of the id; and apply changes the one value of the one record.", "quantifier": "every table, every sequence of filters, all columns, values, record ids and lists of records", "why_tests_cant": "Every statement embeds the text of the state, which nests once per filter, or depends on all rows written before; a wrong statement shows only in what later reads return.", "anchors": ["DRecPy/Dataset/db_dataset.py:74-79", "DRecPy/Dataset/db_dataset.py:254-276", "DRecPy/Dataset/db_dataset.py:332-382", "DRecPy/Dataset/db_dataset.py:444-486", "DRecPy/Dataset/db_dataset.py:519-551", "DRecPy/Dataset/db_dataset.py:652-655", "DRecPy/Dataset/db_dataset.py:826-840", "DRecPy/Dataset/db_dataset.py:879-900"]}
{"id": "C125", "title": "sampling from a database dataset", "statement": "Every sample of a PointSampler over a database dataset is a record of the dataset that reaches the threshold, with its own value, or a pair of known ids without such a record, with value 0; at any time each of these records and pairs can be the next sample; and making a sampler or sampling changes nothing any dataset of the program shows.", "quantifier": "every database dataset with internal ids reached from a csv import by any admissible history, every threshold, every outcome of the random choices and every sequence of samples mixed with other operations on the datasets of the file", "why_tests_cant": "The generators keep state over all samples, work on hidden copies and on SQL texts, and share their tables with datasets that other code narrows and reduces in between.", "anchors": ["DRecPy/Sampler/point_sampler.py", "DRecPy/Dataset/db_dataset.py:157-232"]}
{"id": "C126", "title": "list sampler and Caser do the same on a database dataset", "statement": "On a database dataset with internal ids a ListSampler that groups by uid or iid returns the sequences, target records and negative ids, or raises the exceptions, that it returns or raises on the same records in memory with the same random draws; Caser gets the same training examples, ranks and recommends the same items, and the evaluations report the same results (a ranking evaluation with generated negatives with less than 5000 records); all this also when any number of samplers, trainings and calls are interleaved. Every such call returns.", "quantifier": "every database dataset reached from a csv import by any admissible history, with integer or text ids, no missing users or items and interactions that are numbers; every sampler configuration with one group column and a threshold printed without exponent, all draws, all networks, all requests and interleavings", "why_tests_cant": "The sampler asks the database through generated SQL for every pass and makes tables while doing so; the agreement is between two dataset implementations over all histories, draws and interleavings.", "anchors": ["DRecPy/Sampler/list_sampler.py:33-151", "DRecPy/Recommender/caser.py:72-93,125-146", "DRecPy/Dataset/db_dataset.py:select,values_list,unique"]}
{"id": "C127", "title": "CDAE and DMF do the same on a database dataset", "statement": "On a database dataset with internal ids the interaction vectors of users and items that CDAE and DMF train on are those of the same records in memory (the totals of the interactions, an exception for unknown ids); with the same network predict, rank and recommend return or raise what they return or raise in memory, and the evaluations report the same results (a ranking evaluation with generated negatives with less than 5000 records); all this also when any number of batches and calls are interleaved, as long as memory suffices and there are no more users and items than the cache limits. Every such call returns.", "quantifier": "every database dataset reached from a csv import by any admissible history, with integer or text ids, no missing users or items and interactions that are numbers; all batches, thresholds, networks (raising ones included), requests and interleavings", "why_tests_cant": "Every vector is put together from generated SQL on hidden copies; the agreement is between two dataset implementations over all histories and interleavings.", "anchors": ["DRecPy/Recommender/cdae.py:50-103", "DRecPy/Recommender/dmf.py:64-106", "DRecPy/Recommender/recommender_abc.py:354-461", "DRecPy/Dataset/db_dataset.py:105-155"]}
{"id": "C128", "title": "interaction vectors asked for by several threads", "statement": "A thread that asks a dataset for the interaction vector of a user or an item gets the totals of the interactions of the records, or the exception for an unknown id, whatever other threads ask for at the same time, on an in-memory dataset and on a database dataset.", "quantifier": "every dataset with internal ids (in memory; in a database reached by any admissible history), every number of threads and requests, every interleaving of their accesses to the matrices, the dictionaries and the database, every limit of the dictionaries", "why_tests_cant": "The evaluations call the recommenders from several threads; a race of a few instructions between writing and reading a shared matrix or dictionary practically never happens in a test.", "anchors": ["DRecPy/Dataset/mem_dataset.py:165-218", "DRecPy/Dataset/mem_dataset.py:480-498", "DRecPy/Dataset/db_dataset.py:105-155"]}
{"id": "C129", "title": "nearest neighbour recommenders in floating point", "statement": "Computed with doubles instead of real numbers, similarities are symmetric and at most 1 in absolute value, every user or item has the neighbours of exact arithmetic in the same order, a prediction lies within the range of the neighbours' interactions and is the exact prediction rounded, and rankings list the same items in the same order.", "quantifier": "every dataset, configuration (kind, k, m, averages), user and item", "why_tests_cant": "Rounding shows only for particular numbers of common items and particular similarities (three neighbours of similarity 0.2 turn three fives into 4.999999999999999); tests compare few values with a tolerance.", "anchors": ["DRecPy/Recommender/Baseline/similarity.py", "DRecPy/Recommender/Baseline/aggregation.py", "DRecPy/Recommender/Baseline/base_knn.py:75-131", "DRecPy/Recommender/Baseline/user_knn.py:21-95", "DRecPy/Recommender/Baseline/item_knn.py:21-96"]}
{"id": "C130", "title": "several evaluations or splits at the same time", "statement": "When several calls of ranking_evaluation (or of recommendation_evaluation, leave_k_out or matrix_split) run at the same time in different threads, every call returns, and a call that returns has done each of its own tasks exactly once.", "quantifier": "any number of calls with any numbers of tasks, with or without progress bar, every fair schedule of the calling threads and the tasks", "why_tests_cant": "The calls share a counter of the module that each of them sets to 0; whether a call waits for ever depends on when the others begin, and tests run one call at a time.", "anchors": ["DRecPy/Evaluation/Processes/ranking_evaluation.py:104-130,149-160", "DRecPy/Evaluation/Processes/recommendation_evaluation.py:90-118", "DRecPy/Evaluation/Splits/leave_k_out.py:62-91,114-135", "DRecPy/Evaluation/Splits/matrix_split.py:56-78,86-106"]}
{"id": "C131", "title": "a saved recommender answers like the original", "statement": "Every fitted recommender can be saved, and the recommender loaded from the file shows the same data along every path of attributes, with the same sharing of objects, answers every request like the one saved, does not change when the one saved or its dataset changes, and can be saved again to the same file contents. A save that raises leaves the file as it was.", "quantifier": "every graph of objects (shared and cyclic references included), every program that creates datasets and recommenders and fits them, every request, every later change of other objects", "why_tests_cant": "It is about all object graphs and about everything a recommender refers to after any program; no test saves a recommender.", "anchors": ["DRecPy/Recommender/recommender_abc.py:save,load,__init__,fit", "DRecPy/Recommender/cdae.py:45", "DRecPy/Recommender/dmf.py:62", "DRecPy/Recommender/caser.py:72-75", "DRecPy/Sampler/point_sampler.py:29-43", "DRecPy/Recommender/Baseline/base_knn.py:43-73", "DRecPy/Dataset/db_dataset.py:38"]}
{"id": "C132", "title": "standardised values, predictions and mean loss survive floating point", "statement": "In floating point, a standardised interaction lies in [0, 1], is 0 and 1 exactly at the ends of the interaction range and keeps the order of the interactions; a prediction rescaled from [0, 1] lies within the interaction range, reaches its ends and keeps the order; a network that has learned the standardised interaction predicts the interaction up to rounding; and the average loss is the mean of the losses of the epochs up to rounding, and exactly the loss when all epochs have the same.", "quantifier": "every interaction range and interaction, every network output in [0, 1], every list of losses and every precision", "why_tests_cant": "Rounding errors depend on the values: the few values of a test usually round back to what is expected, and drift of the running average shows only over many epochs.", "anchors": ["DRecPy/Recommender/recommender_abc.py:_standardize_value,_rescale_value", "DRecPy/Recommender/dmf.py:_predict", "DRecPy/Recommender/recommender_abc.py:200-209", "DRecPy/Evaluation/loss_tracker.py:add_epoch_loss"]}
{"id": "C133", "title": "a record without interaction counts like no record", "statement": "On an in-memory dataset some of whose records have no interaction (an empty field of the csv file, NaN), selections by interaction, the range of interactions, interaction vectors, similarities, neighbours, predictions and the results of evaluations are those of the same dataset without these records.", "quantifier": "every list of records with present and missing interactions, every selection, similarity metric, aggregation, list of neighbours, recommendation list and list of users", "why_tests_cant": "NaN is neither equal to, below nor above anything and spreads through sums; which results it reaches depends on where in the data it stands, and test data have no gaps.", "anchors": ["DRecPy/Dataset/mem_dataset.py:_apply_query,max,min,_build_interaction_matrix", "DRecPy/Recommender/Baseline/similarity.py:cosine_sim_cf,pearson_corr,msd", "DRecPy/Recommender/Baseline/user_knn.py:_compute_neighbours", "DRecPy/Recommender/Baseline/base_knn.py:_predict", "DRecPy/Recommender/Baseline/aggregation.py", "DRecPy/Evaluation/Processes/predictive_evaluation.py", "DRecPy/Evaluation/Processes/recommendation_evaluation.py", "DRecPy/Evaluation/Metrics/ranking.py:NDCG"]}
{"id": "C134", "title": "Caser computes the network of the paper", "statement": "For every user, sequence of L items and item to score, Caser's score is the one of the network of the paper: every vertical filter gives for each latent dimension a weighted sum of the embeddings of the items, every horizontal filter of each height from 1 to L gives its largest activation over all positions, a dense layer follows, and the score is the product of its output and the user's vector with the vector of the item plus its bias. Dropout acts in training only and keeps the expected values. A score does not depend on the other examples of the batch or the other items scored.", "quantifier": "every configuration with at most as many items in a sequence as filters per height, all weights, activations, batches of known users and items, all random numbers of the dropout", "why_tests_cant": "Any weights give some scores; a wrong layer, window or axis still trains and ranks, and tests do not compare with the paper.", "anchors": ["DRecPy/Recommender/caser.py:45-75,97-120,136-137"]}
{"id": "C135", "title": "DMF scores are cosines of the two representations", "statement": "For every pair of interaction vectors, DMF's prediction is the cosine of the representations that the ReLU networks give to the user and the item (at least 1e-6), whatever else is in the batch. It lies in [1e-6, 1] and differs from the cosine, which is never negative, by at most 1e-6; a user whose representation is zero gets 1e-6 for every item. With l2_norm_vectors, users whose interactions differ by a factor get the same predictions. Every configuration that the constructor accepts has networks whose sizes fit, and a batch raises exactly when it is empty or a vector has the wrong size.", "quantifier": "all weights, biases, numbers and sizes of layers, batches and interaction vectors", "why_tests_cant": "Trained weights give a few thousand scores; a wrong axis of the normalisation or a batch-dependent score still trains, and the bound 1e-6 is too small to be seen in predictions.", "anchors": ["DRecPy/Recommender/dmf.py:22-106"]}
{"id": "C136", "title": "DMF's scores and predictions in single precision", "statement": "Computed in single precision instead of with real numbers, whatever the order in which the sums are added, DMF's score for two representations of n numbers differs from the exact one by at most (3n + 16) / 2^24, items whose exact scores differ by more than twice that are ranked as by the exact scores, a representation of zeros gives exactly the lower bound, a prediction differs from the exact one by a bound that grows with n and the largest interaction, and predictions lie within the range of the interactions.", "quantifier": "every pair of representations (up to 65536 real numbers each), every order and grouping of the three sums, every reciprocal root within four rounding errors, every interaction range", "why_tests_cant": "A test sees one order of summation and a few vectors; that a score can exceed 1 depends on the last digits of the numbers.", "anchors": ["DRecPy/Recommender/dmf.py:88-106", "DRecPy/Recommender/recommender_abc.py:467-469"]}
{"id": "C137", "title": "cosine and adjusted cosine of whole rows in floating point", "statement": "Computed with doubles, the cosine of two rows (cosine_sim) is there exactly when the rows have a column in common and is close to the exact cosine, with an error bound that grows with the number of values; it is symmetric, close to 1 on the diagonal and within [-1, 1]. The adjusted cosine (adjusted_cosine_sim) is there exactly when both rows deviate from their means in a common column, and is close to the exact one.", "quantifier": "every matrix of real numbers with up to 2^40 records (for the adjusted cosine: of doubles), every pair of rows", "why_tests_cant": "Subtracting a mean that was rounded leaves 1e-17 instead of 0 for some constant rows, and dividing by the norm makes 1 out of it; whether that happens depends on the last digits of the ratings.", "anchors": ["DRecPy/Recommender/Baseline/similarity.py:9-15", "DRecPy/Recommender/Baseline/similarity.py:61-70", "DRecPy/Recommender/Baseline/similarity.py:212-230"]}
{"id": "C138", "title": "DMF's networks in single precision", "statement": "Computed in single precision from the interactions to the score, whatever the order in which the sums of the layers are added and whether products are rounded before they are added, each number of a DMF representation differs from the exact one by at most the error of the operations on its way relative to what it would be if nothing cancelled, the score and the prediction of a user and an item differ from the exact ones by a bound made of these errors, and two items whose exact scores differ by more than both bounds are ranked as by the exact scores. Without negative weights, biases and interactions the bound depends on the sizes of the network only; with them no such bound holds, as terms that cancel can turn a score of 1 into 1e-6.", "quantifier": "every number of layers of any sizes with any weights and biases, every pair of interaction vectors, with or without normalisation, every order and grouping of the sums, up to 65536 operations on the way to one number", "why_tests_cant": "A test compares a few networks with another rounded computation, and sees one order of summation; the loss by cancellation needs particular weights.", "anchors": ["DRecPy/Recommender/dmf.py:49-58", "DRecPy/Recommender/dmf.py:75-106"]}
{"id": "C139", "title": "CDAE's scores in single precision", "statement": "TensorFlow computes CDAE's scores in single precision, adding the products in an order of its own choice. Whatever that order, every score of a known user differs from the exact one by at most a bound that is computed from the weights, the input and the sizes alone, so two items whose exact scores differ by more than both bounds are ordered as by the exact scores, and two computations differ by at most twice the bound. The input, zeros and ones, is exact. Scores are positive and at most 1 up to the error of the sigmoid. With real numbers scores are strictly below 1 and different scores stay different (C81); in single precision this is false: with a hidden value of 1/2 and weights 80 and 60 both scores are exactly 1, and the ranking lists the item with the lower exact score first.", "quantifier": "all networks with at most 65534 items and 65535 hidden units, all users, input vectors, weights and orders of the sums", "why_tests_cant": "a test sees one set of weights and the order of sums of one machine, and compares with a tolerance chosen by hand", "anchors": ["DRecPy/Recommender/cdae.py:67-76", "DRecPy/Recommender/cdae.py:84-103"]}
{"id": "C140", "title": "Caser's scores in single precision", "statement": "TensorFlow computes Caser's convolutions, layers and scores in single precision, adding the products in an order of its own choice. Whatever that order, with the default activations every score differs from the exact one by at most (1 + 2^-24)^n - 1, up to its second order, times the score of the network in which all weights are replaced by their absolute values, where n is the number of operations on a path. So two items whose exact scores differ by more than both bounds are ordered as by the exact scores, two computations differ by at most twice the bound, and without negative weights the bound is a relative one. Scores exist exactly for known users and sequences of known items. It is not the case that items are always ordered by their exact scores: a network with exact scores 1 and 1/2 can yield 0 and 1/2.", "quantifier": "all networks with relu activations, at least as many horizontal filters as items in a sequence and at most 65536 operations on a path; all users, sequences, weights and orders of the sums", "why_tests_cant": "a test sees one set of weights and the order of sums of one machine, and compares with a tolerance chosen by hand", "anchors": ["DRecPy/Recommender/caser.py:97-120", "DRecPy/Recommender/caser.py:126-137"]}
{"id": "C141", "title": "Metric values in double precision", "statement": "Precision, recall, hit ratio and reciprocal rank are the exact values rounded once to the nearest double, lie between 0 and 1, are 0 and 1 exactly when the exact values are, and raise exactly when the exact metrics do; among lists of up to 2^25 items the rounded values order evaluations as the exact ones do.  The F-score is off by at most 11 units of 2^-52 of its value and with the default beta at most 1; average precision stays between 0 and 1, is 0 or 1 exactly when the exact one is and is off by at most one unit per hit and two more; NDCG with an accurate C library is off by at most one unit per item and 21 more, and exactly 1 for the ideal list; MSE, MAE and RMSE, added up in any order, are off by at most one unit per prediction and five more, 0 exactly for perfect predictions, and symmetric.  What holds only in exact arithmetic: the F-score can exceed both precision and recall, NDCG can exceed 1, MAE can exceed RMSE and the square of RMSE need not be MSE.", "quantifier": "for all lists of recommendations and relevant items, all cutoffs, all relevancies, all C libraries with the stated accuracy, all predictions and all orders of summation", "why_tests_cant": "Tests compare a few values with a tolerance; bounds for all inputs and the exact comparisons with 0, 1 and each other concern every pair of lists, and the violations show only in the last digit of particular inputs.", "anchors": ["DRecPy/Evaluation/Metrics/ranking.py:32-56", "DRecPy/Evaluation/Metrics/ranking.py:71-245", "DRecPy/Evaluation/Metrics/regression.py:22-37"]}
{"id": "C142", "title": "An epoch is one step of the optimizer", "statement": "After every number of epochs the weights are those of the optimizer's algorithm, with exactly one step per epoch for every registered variable and the step number equal to the epoch; hence they depend neither on the order in which trainables are registered, nor on their grouping into layers and models, nor on whether the optimizer object was used before.", "quantifier": "for all optimizers, learning rates, initial weights, gradients (functions of epoch and weights), sets of registered variables, layers and models, and numbers of epochs", "why_tests_cant": "A test sees that losses fall; a step number that is too large changes the size of the steps but not their direction, and shows only against an independent computation of the whole training.", "anchors": ["DRecPy/Recommender/recommender_abc.py:153-156", "DRecPy/Recommender/recommender_abc.py:189-203", "DRecPy/Recommender/recommender_abc.py:266-282", "DRecPy/Recommender/recommender_abc.py:328-334"]}
{"id": "C143", "title": "the numbering of users and items does not matter to the networks", "statement": "CDAE, DMF and Caser treat internal ids as mere labels: when users and items are numbered differently, for instance because the records come in another order, and the first weights and the drawn samples are those of the same users and items, then after every number of epochs, with every optimizer, the weights are the renumbered ones, or both fits raise the same error; every user gets the same scores for the same items and the same recommendations in the same order.", "quantifier": "for all renumberings, sizes of the networks, first weights, batches, losses, regularization rates, optimizers and numbers of epochs; for all datasets with the same records in any order", "why_tests_cant": "A test fits with one numbering. Comparing two fits needs the same random numbers for the same users and items, which no seed provides, and a dependence on the order of the rows of a weight matrix stays within the variation between seeds.", "anchors": ["DRecPy/Recommender/recommender_abc.py:189-203", "DRecPy/Recommender/cdae.py:36-82", "DRecPy/Recommender/dmf.py:46-99", "DRecPy/Recommender/caser.py:47-123"]}
{"id": "C144", "title": "training leaves the weights of users and items outside the batches alone", "statement": "When CDAE, DMF or Caser is trained, a weight that belongs to a user or item which none of the batches uses is changed by the regularization only. With plain gradient descent it is multiplied in every epoch by 1 - 2 * lr * reg_rate (for CDAE 1 - lr * reg_rate / batch size), biases stay as they are; without regularization it keeps its first value with every optimizer that takes no step for derivatives 0 (among them gradient descent, momentum and Adam). With all optimizers the change is small when reg_rate is small.", "quantifier": "All weights, numbers of users and items, sizes of the networks, batches, numbers of epochs, learning rates, rates of the regularization and (without regularization) optimizers.", "why_tests_cant": "A test trains on a few batches and cannot distinguish a small wrong gradient from regularization; which users and items are missing from the batches is random.", "anchors": ["DRecPy/Recommender/recommender_abc.py:186-204", "DRecPy/Recommender/recommender_abc.py:328-334", "DRecPy/Recommender/cdae.py:50-82", "DRecPy/Recommender/dmf.py:88-99", "DRecPy/Recommender/caser.py:77-123"]}
{"id": "C145", "title": "an epoch with a small learning rate lowers the loss", "statement": "An epoch of training on a batch lowers the loss of that batch when the learning rate is small enough, unless all derivatives are 0, in which case the weights stay as they are. For CDAE this holds with plain gradient descent from every state and with Adam and momentum in the first epoch, for mean squared error everywhere and for binary crossentropy when the predictions lie between the clipping bounds; for DMF and Caser it holds wherever no value computed for the batch is exactly at a bound (relu, pooling, normalization, clipping).", "quantifier": "All numbers of users, items and hidden units, weights, batches, rates of the regularization and starting states; all learning rates below a bound that depends on these.", "why_tests_cant": "A test sees a loss fall on one dataset with one seed; a gradient with the wrong sign in a few weights, or a loss that the registered variables only partly determine, still lets it fall there.", "anchors": ["DRecPy/Recommender/recommender_abc.py:186-204", "DRecPy/Recommender/recommender_abc.py:328-334", "DRecPy/Recommender/cdae.py:36-82", "DRecPy/Recommender/dmf.py:46-99", "DRecPy/Recommender/caser.py:47-123"]}
{"id": "C146", "title": "the registered variables are the model", "statement": "The predictions and the loss of CDAE, DMF and Caser depend on the registered variables and on no other weights. A model fitted with early stopping therefore predicts, for every user and item, what it predicted after the epoch that the rule chose.", "quantifier": "All sizes, weights, users, items and batches; all numbers of epochs, rules, callbacks and training steps.", "why_tests_cant": "Predictions that drift away from the chosen epoch are still plausible numbers; a test would have to keep the predictions of every epoch and compare them with those of the fitted model for every pair.", "anchors": ["DRecPy/Recommender/recommender_abc.py:194-205", "DRecPy/Recommender/recommender_abc.py:253-256", "DRecPy/Recommender/recommender_abc.py:336-351", "DRecPy/Recommender/cdae.py:36-76", "DRecPy/Recommender/dmf.py:46-86", "DRecPy/Recommender/caser.py:47-120"]}
{"id": "C147", "title": "early stopping on a validation set keeps the best validated model", "statement": "With a callback that evaluates the ranking of the model on a validation set and MaxValidationValueRule for one of its metrics, the chosen epoch is the first validated epoch with the best value of that metric, however the evaluation tasks interleave. Evaluated once more in the same way, the fitted model scores exactly what it scored at that epoch, and no validated epoch scored more.", "quantifier": "All datasets, metrics with different names, cut-offs, prefixes of the names, frequencies, numbers of epochs, training steps and interleavings of all evaluation tasks.", "why_tests_cant": "Scores of neighbouring epochs are close and noisy, so keeping the wrong epoch, comparing another cut-off or pairing values with the wrong epochs is invisible in the reported numbers.", "anchors": ["examples/cdae_validation.py:18-30", "DRecPy/Recommender/recommender_abc.py:207-256", "DRecPy/Recommender/EarlyStopping/max_validation_value_rule.py:18-30", "DRecPy/Recommender/EarlyStopping/early_stopping_rule_abc.py:21-65", "DRecPy/Evaluation/Processes/ranking_evaluation.py:92-133"]}
{"id": "C148", "title": "every sample of a batch counts the same, in any order", "statement": "For CDAE, DMF and Caser the loss of a batch is the mean of the losses that its samples have alone, and its derivatives are the means of theirs. The order of the samples in the batches does not matter: with every optimizer and after every number of epochs the weights and the state of the optimizer are the same.", "quantifier": "All sizes of the networks, weights, samples, batch sizes and orders, dropout, rates of the regularization, optimizers and numbers of epochs.", "why_tests_cant": "A loss that pairs predictions with the wrong samples or weights samples by their position still falls during training, and a test compares no batch with its samples or with the same batch in another order.", "anchors": ["DRecPy/Recommender/recommender_abc.py:189-204", "DRecPy/Recommender/cdae.py:50-57", "DRecPy/Recommender/cdae.py:78-79", "DRecPy/Recommender/dmf.py:64-99", "DRecPy/Recommender/caser.py:77-95"]}
{"id": "C149", "title": "CDAE learns from the targets of a batch only their mean", "statement": "When CDAE is trained twice with the same users and inputs in every batch and the wanted vectors of every batch have the same mean, both fits end with the same weights and the same state of the optimizer, with mean squared error and with binary crossentropy. In particular the wanted vectors of a batch can be exchanged between its users. The recommender of examples/custom_deep_recommender.py has the same behaviour for its desired values, and orders the items in the same way for all users.", "quantifier": "All sizes, first weights, batches, wanted vectors, rates of the regularization, optimizers and numbers of epochs.", "why_tests_cant": "The loss still falls and scores still improve, because popular items are learned; a test would have to train twice on exchanged targets and compare all weights.", "anchors": ["DRecPy/Recommender/cdae.py:50-82", "DRecPy/Recommender/recommender_abc.py:189-203", "examples/custom_deep_recommender.py:24-45"]}
{"id": "C150", "title": "undefined validation values are passed over", "statement": "When some values of the validation metric are NaN, as after training that diverged, MaxValidationValueRule chooses the first epoch with the largest number among the others. With numbers only the rule is the usual one. The average loss is NaN from the first NaN loss on and the mean of the losses before.", "quantifier": "All lists of values and losses with NaN at any positions, and all validated epochs.", "why_tests_cant": "Comparisons with NaN are silently false, so a wrong epoch is chosen without an error, and only when the NaN comes at a particular position.", "anchors": ["DRecPy/Recommender/EarlyStopping/max_validation_value_rule.py:18-27", "DRecPy/Evaluation/loss_tracker.py:15-30"]}
{"id": "C151", "title": "each of several epochs lowers the loss", "statement": "When the same batch is used in every epoch, then for every number n of epochs there is a bound such that with every learning rate below it each of the first n epochs lowers the loss of the batch, unless all derivatives are 0 at the start. For CDAE this holds with Adam and with momentum from a new optimizer and with gradient descent from every state, for mean squared error everywhere and for binary crossentropy when the predictions lie between the clipping bounds; for DMF and Caser it holds wherever no value computed for the batch with the first weights is exactly at a bound (relu, pooling, normalization, clipping).", "quantifier": "All numbers of epochs, users, items and hidden units, weights, batches and rates of the regularization; all learning rates below a bound that depends on these.", "why_tests_cant": "Moving averages that are stored for the wrong variable, not corrected or not kept between epochs show up only after several epochs and then look like a badly chosen learning rate; a test sees one run with one learning rate.", "anchors": ["DRecPy/Recommender/recommender_abc.py:153-156", "DRecPy/Recommender/recommender_abc.py:186-204", "DRecPy/Recommender/recommender_abc.py:328-334", "DRecPy/Recommender/cdae.py:36-82", "DRecPy/Recommender/dmf.py:46-99", "DRecPy/Recommender/caser.py:47-123"]}
{"id": "C152", "title": "Ranking with undefined scores", "statement": "When some predictions are NaN, a ranking still consists of different candidates, each with its own score, and of as many as asked for or as there are predictions; the best item is the one with the largest number; the order is that of the scores that are numbers; and with a threshold only items whose score is a number that reaches it are recommended.", "quantifier": "for all candidate lists, all scores including undefined and missing ones, all numbers of results and all thresholds", "why_tests_cant": "Predictions become NaN only after training that diverged, and which items come out depends on where in the heap the NaN happens to be; a test covers one arrangement.", "anchors": ["DRecPy/Recommender/recommender_abc.py:413-419", "DRecPy/Recommender/recommender_abc.py:454-461"]}
