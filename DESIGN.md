# Formal model of DRecPy: design

Source: `/repo` (fabioiuri/DRecPy, pinned commit), read as text.  Model: Lean 4
(`lean/Verif/`), built with `lake build`; Mathlib modules are imported one at a time.

Contents: 1 layout, 2 modelling conventions, 3 properties one by one (what is modelled, how it is
proved, where code and property disagree), 4 trusted base, 5 what is not modelled, 6 mutation tests.

## 1. Layout

| folder | content |
|---|---|
| `lean/Verif/Model/` | the code, function by function; every definition cites file and lines |
| `lean/Verif/Spec/` | small definitions that property statements use, written without the model's helpers |
| `lean/Verif/Props/` | the property theorems `Cxx_...`, their examples and the witnesses against the code |
| `lean/Verif/Lemmas/` | helper lemmas; nothing here is claimed in `MANIFEST.json` |

`properties.jsonl` has the properties in words, `MANIFEST.json` maps each of them to theorem names,
`seeded/LOG.jsonl` lists the mutation tests.

Names: `Cxx_..._partial` is a theorem that proves less than the property; its comment has the full
statement and what is missing.  `Cxx_fails...`, `Cxx_..._leaks`, `Cxx_stale...` and similar names are
negations: they prove, on a concrete witness or for a whole class of inputs, that the code does not
have the property.  An `example` beside a theorem shows a non-trivial case that meets its hypotheses.

## 2. Modelling conventions

* Every Python function that matters for a property is a small total computable Lean definition.
  Exceptions are values (`Except Err`), mutation is state passing, generators and random sources are
  explicit arguments.
* Values are `Val = num ℚ | str String | null`.  Python ints and floats are one numeric type (they
  compare and hash equal in Python).  Floats are exact rationals; reals are used where the code takes
  square roots or logarithms.  Rounding is modelled for shares (`Model/Float`, C121), for
  the sums of metric values (`Model/FloatEval`, C122), for nearest neighbour recommenders (`Model/FloatKnn`, `Model/FloatCosine`, C129, C137), and for
  standardised values and the mean loss (`Model/FloatFit`, C132), DMF's networks and scores (`Model/DmfFloat`, `Model/DmfTower`, C136, C138), CDAE's scores
  (`Model/CdaeFloat`, C139), Caser (`Model/CaserFloat`, C140), metrics (`Model/FloatMetrics`, C141); elsewhere rounding errors are outside
  the model.  NaN is modelled for missing interactions (`Model/Missing`, C133), infinities are not.
* A row is a record id plus a total function from column names to values; which columns are visible
  is decided by the `columns` list of the dataset, as in the code.
* Random sources are universally quantified oracles, so a theorem holds for every sequence of
  outcomes, hence for every seed.  "Can yield" claims quantify existentially over the oracle.
* Threads are interleavings of atomic steps (acquire, load, store, release); theorems quantify over
  all schedules.  The progress loops that wait for a counter are modelled by the value of the counter.
* Objects that are shared by reference (dataframes, column lists, mappings, argument lists) are
  modelled by heaps where sharing matters (C07, C09, C30, C31); elsewhere by values.
* SQL statements have the relational meaning of exactly the statements that the code builds.
* A save is a list of file system steps; crash theorems quantify over every prefix.

## 3. Properties

### In-memory dataset (`Model/Core`, `QueryText`, `Mem`, `MemHeap`)

* **C01** partial.  `select` with its text parser and the row filters, in both modes.  `C01_select_exact`
  says the result is `List.filter` by an independent evaluation of the written conditions
  (`Spec/Query`).  Proof: the printed text is parsed back to the conditions, and the step-by-step
  filter with exceptions equals one filter when all comparisons are defined.  `C01_select_partial` adds `==`/`!=` on
  text `user`/`item` columns of datasets with internal ids.  *Disagreement:* orderings on such columns compare the
  internal ids (`C01_fails_with_ids`, see C04).
* **C02** proved.  Printing and parsing of conditions.  Proof: round trip by induction over the list of
  conditions, with lemmas on `split` and `strip`.  `C02_numbers` characterises the texts that are numbers.  A bare word that happens to be a Python name in the
  scope of `eval` is taken as text.
* **C03** partial.  In memory: composition from C01's filter form; arbitrary texts, not only written ones.  Database
  (`C03_db_partial`): from the meaning of every step of a history (C18); missing are queries that are not admissible and
  calls that raise (`C18_hidden_raise`).
* **C04** partial.  Filters on `user`/`item` of a dataset with internal ids are translated to ids by the
  code.  Proved for integer id columns with every operator and for `==`/`!=` on text columns.
  *Disagreement:* orderings on text ids compare internal ids, a number given for a text id matches the
  text, float id columns find nobody, an unknown id in an ordering raises.  Four witnesses.
* **C05** partial.  In memory: `drop` with `keep`; sublist and permutation statements.  Database (`C05_db_partial`): the
  two datasets returned at any point of an admissible history split the records; missing are histories that are not
  admissible and calls that raise.
* **C06** proved.  `unique` as first-occurrence deduplication; statement by `Nodup`, membership and
  "earliest record".
* **C07** partial.  Both backends, and a heap of list objects for the argument (`Model/UniqueArg`).
  Proved: the in-memory backend never changes a list; on explicit columns without `rid` both backends
  agree after every admissible history.  *Disagreement:* `unique()` keeps duplicates in the database
  (`rid` is among the columns), the database appends `rid` to the caller's list, and so a second call
  with the same list object gives another result.
* **C08** proved.  `exists`, `select_one`, `len`, `max`, `min`.
* **C09** proved.  Heap with shared dataframes, column lists and mappings; every history of operations
  on any number of datasets.  Proof: simulation by separate values with an ownership invariant.
* **C10** proved.  `assign_internal_ids` (factorize) and the four conversions.
* **C11** partial.  *Disagreement:* on an integer column a non-integral float argument is truncated, so
  `user_to_uid(3.7)` is the id of user 3.  Proved for integers and strings.  `C11_number_in_text_column`: on a column
  of texts `user_to_uid(1)` finds user "1" and `user_to_uid(1.0)` does not.
* **C12** proved.  Ids under filtering, reassigning, removing.
* **C13** partial.  *Disagreement:* the mapping is not updated by filters, so dropped users keep an id.
  Proved right after assignment.
* **C14** proved.  `apply` with a function that may raise; `C14_types` says which type the column has afterwards.
  `C14_raises_after_change`: rebuilding a cached matrix can raise when the records have changed already.
* **C15** partial.  Interaction vectors through the cached sparse matrix.  Proved for every request
  sequence with at least two users, and for user vectors in general.  *Disagreement:* on a dataset with a
  single user the second item vector request raises.  `C15_text_raises`: a text that is no number raises.
* **C16** partial.  *Disagreement:* in-place select, drop and unique leave the cached matrix stale.
  Proved for `apply` and for everything that returns a copy.
* **C17** partial.  *Disagreement:* after a filter that removes all records of a user or item, vector
  requests raise (the matrix is indexed by compressed positions).  Proved otherwise.

### Database dataset (`Model/Db`, `Model/DbVec`, `Spec/Db`, `Lemmas/Db*`)

A `World` is one SQLite file: tables, the registry of objects per table and per file, open generators,
and the dataset objects with their state query (a syntax tree of nested `SELECT`s), counters and column
types.  `World.optimize` is the hidden reduction (shrinking the own table or splitting off a new one).
All properties are proved by invariants over histories of `DbOp`s on any number of objects.

* **C18** partial.  Simulation: the view of every object evolves as a plain list of records
  (`C18_history_partial`), reads and lengths show it, and operations on datasets with the usual columns
  return.  *Disagreement:* a hidden reduction on a dataset with few columns raises at the fourth read,
  `remove_internal_ids` shifts columns when the id columns are not the last, `unique([])` raises after
  changing the dataset.
* **C19** partial.  No operation changes another object's view, without any admissibility condition.
  *Disagreement:* renumbering a shared table changes the ids that copies read, and `apply` with an open
  generator writes to the shared table.  Witnesses.
* **C20** partial.  *Disagreement:* `apply` is a loop of updates; a failure on a later record leaves the
  earlier ones changed, and results of mixed types are stored as texts.  Proved for one result type, for
  failures on the first record and for failures while the type changes.
* **C21** proved.  Registry invariant over all histories and open generators.
* **C22** partial.  *Disagreement:* closing a dataset opened on a user's `.sqlite` file drops its table; a
  reduction deletes records from it.  Proved while the opened dataset is only read and copied.
* **C23** partial.  *Disagreement:* lookups search the table, not the state, so a dropped user is found
  until the next reduction.  Proved for every user and item that the dataset shows; without internal ids
  every lookup raises.
* **C24** partial.  Bounded cache for all request sequences; right vectors after every admissible history.
  *Disagreement:* the cache is never emptied by modifications; running out of memory raises `KeyError`.
* **C25** partial.  Histories of both backends side by side (`Spec/Both`).  *Disagreement:* a text that
  names a column is compared as a column (double quotes in SQL), a text with a double quote raises,
  missing values behave differently, a dataset opened from a file has no types, hidden reductions raise.
  Five witnesses.
* **C96** partial (`Model/DbClosed`).  The registry invariant of C21 gives that a second close finds nothing to
  remove.  *Disagreement:* it raises `KeyError` as soon as another dataset of the file is open.
* **C97** partial.  Reads of a closed object: new connection, old attributes.  *Disagreement:* the reduction
  asks whether the table has one registered user, not whether that is the object itself, so a closed dataset
  with a filter deletes records of the open one; connecting again makes an empty file.
* **C98** partial (`Model/DbLocks`).  Lock states of SQLite (shared, reserved, deferred transactions) over the
  statements each method issues; invariant over all histories.  *Disagreement:* a function that raises in
  `apply` leaves the transaction open (`C98_exclusive`: then all changes on the other datasets fail); random generators are not registered as open; `apply` does not ask for
  generators of other datasets.  A dataset's own generators only stand in the way of `assign_internal_ids`, which drops indexes
  (`C98_own_generators`, `C98_fails_own`).
* **C100** partial (`Model/DbThreads`).  Selections of several threads on one object, cut into the steps between
  which another thread can run; theorems hold for every interleaving after every admissible history.  Proof:
  an invariant that says what each unfinished task has copied, preserved by the steps of all tasks.
  *Disagreement:* the copy takes the table first and the filter later; a reduction by another thread in between
  replaces both, so the task reads the old table without filter.
* **C102** partial (`Model/DbSplits`).  `unique` for the users, the tasks' selections in every interleaving (C100),
  the critical sections (C36), and the two drops, compared with the in-memory splits.  Proof: each task gets the
  records of its user (invariant of C100), so the lists of sections are the same; `random_split` runs with a value
  generator open, when nothing is reduced.  Simplifications: the users are read before the first task starts; the
  critical sections touch no dataset and run after the selections.  *Disagreement:* on a filtered dataset an
  interleaving moves the only record of a user to the test set; `unique('user')` on a dataset narrowed twice before,
  with 5000 records more than users, asks for a table without the columns a table needs and raises.

* **C105** proved (`Props/Promotion`).  `Spec/Promotion` says what an exchange is; each prefix of the better list
  has at least as many relevant items, which bounds all metrics that count; for average precision by comparing
  the two sums with triangular numbers, for DCG by the discounts decreasing.
* **C106** proved (`Props/Agree`).  All ranking methods sort the same candidates by score and id and cut
  afterwards, so lists of different length and of differently ordered arguments agree.
* **C107** proved (`Props/Perfect`).  `C73_ranking` (what is ranked: sampled positives, listed and generated
  negatives, all different) feeds the theorems about single metrics (C39–C41), `C92_library` (what the metrics
  get) and `C44_ranking` (all interleavings).  Not true of reciprocal rank: `C107_reciprocal_rank_fails`.
* **C108** partial (`Model/Logging`, `Spec/Logging`, `Props/Logging`).  The process-wide loggers as lists of handlers by
  name.  Console messages appear once in every history (`C108_console`), no message is lost (`C108_nothing_lost`); the
  file part needs that no two recommenders of one class have a log file (`C108_files_partial`).  Disagreement
  (`C108_fails`): the console handlers are replaced on creation but file handlers are added, so messages of a second
  recommender of the class also go to the first one's file, and twice to one file when both were created within the
  same second.
* **C109** partial (`Model/DbEval`, `Spec/DbEval`, `Lemmas/DbEval`, `Lemmas/DbEvalTask`, `Props/DbEval`).  The tasks as
  programs of dataset operations on one world of database datasets, run by a pool in any interleaving.  A task is proved
  to return the in-memory outcome whatever others do to datasets it does not own (`Gives`), so the pool does
  (`C109_ranking_partial`, `C109_recommendation_partial`; evaluations exist: `C109_returns_partial`).  Missing: users or
  items that are not integers, thresholds printed with an exponent, large tables.  Disagreement (`C109_fails`): with at
  least 5000 records more than the user has different liked items, `unique('item')` is the third narrowing, reduces a
  dataset of one column and raises `AssertionError`; `_ranking_evaluation_user` logs it and the user does not count,
  while in memory the same user is evaluated (`exLarge_evaluated`).  Simplifications: each dataset operation is one step,
  the list of users is read to its end before the tasks start, objects of a task that raised stay open.
* **C110** partial (`Spec/RowOrder`, `Lemmas/RowOrder`, `Props/RowOrder`).  Datasets with the same raw records in any order
  and freshly assigned ids are related by an injective renaming of rows and columns.  Every similarity metric is invariant
  under such renamings (`C110_cosine` … `C110_jaccard`), hence co-ratings, candidates, neighbour sets, predictions
  (`C110_predict_partial`) and complete recommendation lists (`C110_recommend_partial`, through `C64`).  Missing: repeated
  pairs, ties among more than `k` candidates, user neighbourhoods with averages (recommendations).  Disagreements:
  `C110_fails_ties` (`nlargest` over `(similarity, id)` prefers the user whose first record comes later in the file) and
  `C110_fails_repeated` (`_get_interaction` takes the first record of a repeated pair).
* **C111** (`Model/Predictive`, `Spec/Predictive`, `Props/Predictive`).  `predictive_evaluation` from reading the test records
  to the rounded metric.  `C111_bounds` (through monotone rounding and bounds of the sums), `C111_knn` (with `C63_range`),
  `C111_exact` and `C111_zero` (with C43 and C50), `C111_returns` (no counted prediction: sklearn raises `ValueError`),
  `C111_database` (with the plain-table description of C18).
* **C112** (`Spec/Transpose`, `Props/Transpose`).  Both classes share the definitions of `Model/Knn` by kind, checked line by
  line against both files.  `C112_mirror` goes from raw records over the assignment of ids, fitting and lookup to `predict`.
* **C113** partial (`Model/Download`, `Spec/Download`, `Props/Download`).  A download is a list of changes of the dataset's folder;
  a process that dies leaves the effect of a prefix.  `C113_first`, `C113_full`, `C113_clean` (normal downloads), `C113_died_partial`,
  `C113_plain_partial` (what later calls do after a death, for every point), `C113_bad_partial`, `C113_page_partial` (answers
  that are not the dataset).  *Disagreement:* `is_stored` only looks whether the folder exists, so an incomplete
  download is never repaired: `C113_fails_archive`, `C113_fails_plain` (a truncated file is returned as the dataset),
  `C113_fails_answer` (the status of the response is not looked at).
* **C114** partial (`Model/Loss`, `Props/Loss`).  Cross-entropy of keras with its clipping and its epsilon over the reals.
  `C114_least` and `C114_closer` from `log x ≤ x - 1`; `C114_dmf_partial` from the sampled ids through the vector caches to the
  mean; `C114_caser`; `C114_reg`.  *Disagreement:* `C114_fails_raw` (without `use_nce` the targets are raw interactions,
  all interactions of at least 1 are trained towards 1 and the loss is negative), `C114_fails_cdae` (the broadcast of C85).
* **C115** partial (`Model/Fitted`, `Spec/HeldOut`, `Props/HeldOut`).  The composition of a split, `assign_internal_ids`, a
  recommender with the base class ranking and `recommendation_evaluation`: `C115_recommended` gives the exact set of
  recommended items from C51; `C115_leave_k_out` and `C115_matrix_split` provide the split; `C115_reported_partial` the
  reported numbers from C44, C73 and C39.  *Disagreement:* `C115_fails_cold` (an item only held-out records are about is
  unknown to the recommender and counts as missed), `C115_fails_repeated` (with two records about one item the split can
  hold out one of them, and novelty then hides the item), each in every execution on a concrete dataset.
* **C116** proved (`Model/DbKnn`, `Spec/DbKnn`, `Lemmas/DbKnn`, `Lemmas/DbKnnRank`, `Lemmas/DbKnnFit`, `Props/DbKnn`).  What
  `fit`, `predict`, `rank`, `recommend` ask the dataset is written as a program of dataset operations (`DbProg`), continued
  with what is computed from the answers.  Each program delivers the result of the in-memory function in every world that
  keeps the shared datasets (`DeliversIn`); `pool_results` composes this over all interleavings.  `C116_ready` is about
  `assign_internal_ids`, `C116_fit` about fitting, `C116_answers` about calls, the others about evaluations.  Conditions
  stated in the theorems: ids are integers or texts (a number column of the database would compare `1.5` and `'1.5'`
  equal), every record has a user and an item, interactions are numbers, nobody else reads ids from the same table
  (`IdSafe`), and for ranking evaluations with generated negatives less than 5000 records (see `C109_fails`).
* **C117** partial (`Model/MemOom`, `Spec/MemOom`, `Props/MemOom`).  Vector requests and `apply` with a flag telling whether
  building the matrix raises `MemoryError` at that call; the marker `0` left in the cache is modelled as an empty matrix.
  `C117_user` (user vectors) and `C117_records` hold after every history; `C117_item_partial` needs enough memory.
  *Disagreement:* `C117_item_fallback` shows what the fallback of `select_item_interaction_vec` (mem_dataset.py:204-218)
  computes instead, the vector is indexed by the item id rather than the user ids; `C117_item_fails` is a witness, and
  `C117_apply_fails` shows `apply` raising after having changed the interactions.
* **C118** proved (`Spec/ScoreOrder`, `Props/ScoreOrder`).  The lists sorted by two recommenders are images of one list of
  items with both scores, for which the two orders on (score, item) agree (`alike_nlargest`); evaluations use C44.  Nearest
  neighbour recommenders have their own `_rank` and are not covered.
* **C119** proved (`Spec/Renaming`, `Props/Renaming`).  `distinctVals` commutes with an injective renaming, so the records get
  the same internal ids (`C119_ids`); ranking uses the dataset only through the internal ids of its records
  (`sameRecommender_eq`).  Scores of CDAE, Caser and other recommenders are the same function of internal ids on both
  sides (the networks are not modelled as functions of the data).
* **C133** partial (`Model/Missing`, `Lemmas/Missing`, `Props/Missing`).  Records of an in-memory dataset whose interaction may be
  missing (NaN, written `⊤`: sums, products and quotients with it are `⊤`, comparisons with it false, `!=` true).  Proved to count
  like no record: in every selection but `!=`, in maxima, minima and the learned range, and among relevant items.
  *Disagreements*: `interaction != v` selects missing ones; a pair with a common item where one interaction is missing has no cosine
  or Pearson similarity; one missing interaction anywhere removes all MSD similarities (the largest difference is NaN), and with them
  all neighbours; a prediction is NaN as soon as one neighbour's interaction is missing, whatever the others have; predictive
  evaluation raises `ValueError` (scikit-learn's check); a recommended item with missing interaction makes NDCG, and the mean over all
  users, NaN.  Not modelled: `cosine_sim` and `adjusted_cosine_sim` (raise in the same check), rankings with NaN scores (order of
  `heapq` with incomparable keys), missing ids.  `C133_present`: without missing interactions everything is as in the other models.
* **C132** partial (`Model/FloatFit`, `Spec/FloatFit`, `Lemmas/FloatFit`, `Props/FloatFit`).  Numbers of any precision: doubles
  for Python numbers, 24 binary digits for TensorFlow tensors; `C132_rounding` shows that rounding gives a nearest number of
  the precision.  `C132_standardized`: standardised values lie in [0, 1], reach the ends, keep the order and are within four
  roundings.  `C132_rescaled_partial`: predictions lie in the range when its ends are multiples of a power of two;
  `C132_rescaled_refuted`: with the largest interaction 0.1 a prediction is 0.10000000149.  `C132_learned`: a learned
  interaction is predicted up to `10 M / 2^24`.  `C132_mean_loss`, `C132_same_loss`: the running average of the losses has an
  error of at most six roundings for each epoch, none when the losses are equal; `C132_mean_refuted`: it is not the mean
  rounded once (losses 1, 1, 3).  Simplification: unbounded exponents (no overflow, no subnormal numbers).
* **C131** partial (`Model/SaveLoad`, `Spec/SaveLoad`, `Lemmas/SaveLoad`, `Props/SaveLoad`).  Objects are data and references
  (to objects, or by name to functions and loggers); `save` is a depth-first walk with a memo, `load` makes new objects.  The
  walk is shown to visit exactly what can be reached, once, with enough depth (`C131_saves`), so the copy shows the same data
  and the same sharing along all paths and is independent of the original (`C131_round_trip`, `C131_others`), and saving it
  again writes the same file (`C131_again`).  `C131_answers`: nearest neighbour recommenders give the same answers.
  `C131_recommenders_partial`: which recommenders can be saved, after any program of creating and fitting; whether TensorFlow
  objects can be pickled is a parameter.
  Disagreements: a fitted CDAE or DMF can never be saved, because its `PointSampler` holds generators, and no recommender
  fitted on a database can, because of the connection (`C131_refuted`); the failing `save` has by then emptied the file, so a
  model saved there earlier is lost (`C131_lost`).
* **C130** partial (`Model/Progress`, `Spec/Progress`, `Lemmas/Progress`, `Lemmas/ProgressEnd`, `Props/Progress`).  Any
  number of calls of one function, each with its calling thread and its tasks, on the counter and the lock of the module;
  the increment is a read and a write under the lock, the reset a write without it, the loop reads twice.  An invariant gives
  the results (`C130_results`); liveness under fair schedules (`Fair`) by counting unfinished tasks and by the bound
  "the counter is at least the number of finished tasks of the call that began last" (`C130_returns_partial`).
  Disagreement: `n_tasks_done` is reset by every call, so an earlier call with more tasks can wait for ever whatever
  happens afterwards (`C130_hangs`, with `C130_stuck`); calls of the same size always return (`C130_same_size`).
* **C129** partial (`Model/FloatKnn`, `Spec/FloatKnn`, `Lemmas/FloatKnn`, `Lemmas/FloatKnnFit`, `Lemmas/FloatSim`,
  `Lemmas/FloatCos`, `Lemmas/FloatPearson`, `Lemmas/FloatMsd`, `Lemmas/FloatShrink`, `Props/FloatKnn`, `Props/FloatSim`).  The numeric functions of the nearest neighbour recommenders with every operation rounded to a double
  (`toFloat`, C121).  Jaccard similarities of two different ids are quotients of whole numbers up to the number of records,
  which rounding keeps apart (`quotients_apart`), so neighbours are those of exact arithmetic (`C129_neighbours`); sums of
  interactions on a grid are exact, means are again such quotients, so predictions and rankings are those of exact arithmetic
  (`C129_exact`).  Error bounds for the other metrics and aggregations (`C129_cosine_partial`, `C129_range_partial`).
  The other metrics are compared with the exact value over the common columns: forward error of the sums, then of roots,
  product and quotient (`C129_cosine_close`, `C129_msd_close`); deviations from the mean lose digits, but on a grid the
  exact spread is at least one step squared over `n`, which bounds the relative error (`C129_pearson_close`).  What is
  stored, with shrinkage or without, and what stays from an earlier fit (`C129_stored`).
  Disagreements: two users that give 1 to the same three items have cosine 1.0000000000000002 (`C129_cosine_refuted`);
  weighted aggregation predicts 4.999999999999999 from three fives (`C129_weighted_fails`), which changes the item
  recommended first (`C129_order_fails`); mean aggregation predicts 0.10000000000000002 from three 0.1 (`C129_mean_fails`).
  `cosine_sim`, `adjusted_cosine_sim` (scikit-learn) are in C137.  Not claimed: the order of neighbours
  under shrinkage or other metrics, which rounding can change.
* **C137** partial (`Model/FloatCosine`, `Spec/FloatCosine`, `Lemmas/FloatCosine`, `Props/FloatCosine`).  scikit-learn's
  `normalize` and scipy's sparse product with every operation rounded, summed in the order of the columns.  Proof: relative
  errors of the norm, of each normalised number and of the sum, with Cauchy's inequality over the common columns
  (`cosFullFloat_close`, which also takes errors made before); on a grid what is left after subtracting the mean has a small
  relative error, as it is zero or at least one step over `n` (`devFloat_close`).  *Disagreements:* three ones have cosine
  1.0000000000000002 with themselves (`C137_range_refuted`); the mean of 0.1, 0.1, 0.1 is 0.10000000000000002, so that two
  users that rate everything 0.1 get adjusted cosine 1 instead of none (`C137_adjusted_fails`).  Simplifications: unbounded
  exponents; records of the same cell are added up exactly.
* **C128** partial (`Model/DbCache`, `Spec/DbCache`, `Lemmas/DbCache`, `Props/DbCache`; `Model/MemVecs`, `Spec/MemVecs`,
  `Props/MemVecs`).  Database: programs whose steps are dataset operations and single accesses to the dictionaries (look,
  measure, empty, put, fetch), one step per access.  Every interleaving gives right vectors or `KeyError`
  (`C128_right_or_missing`, by an invariant on the dictionaries that every step of every thread keeps), only right ones if
  nothing is ever emptied (`C128_right_partial`).  Memory: a small-step machine for lines 165-218 and 480-498, one access to
  `_cached_interaction_matrix` or `_cached_trans_interaction_matrix` per step; `C128_memory_alone` ties it to the
  sequential model of C15/C117 and `C128_memory_partial` is an invariant over all schedules.
  Disagreement: a dictionary longer than its limit is emptied between another thread's look and fetch (`C128_refuted`, for
  every dataset and every pair of ids).  In memory, `_cached_interaction_matrix` is set (line 495) before
  `_cached_trans_interaction_matrix` (line 498), so an item vector asked for in between raises `TypeError`
  (`C128_memory_refuted`, every dataset with two users); with one user the second request takes the fallback and overwrites
  the matrix by `csr_matrix(0)`, so the first gets `[0]` (`C128_memory_single`); memory running out in one thread gives
  another thread `[0]` or `IndexError` (`C128_memory_oom`).
* **C127** proved (`Model/DbNets`, `Spec/DbNets`, `Lemmas/DbNets`, `Props/DbNets`).  CDAE and DMF as programs of dataset
  operations in the style of C116: `select_user_interaction_vec`, `select_item_interaction_vec` (`dbVec`), `_predict`,
  `_rank` with its two ways of finding known items, the base class `_rank` with a `_predict` that asks the dataset
  (`dbBaseRankBy`), the vectors of a batch.  `C127_training`, `C127_answers` hold for every interleaving of any number of
  programs, `C127_evaluation` for the evaluation tasks, `C127_returns` says complete runs exist.
  `C127_dictionaries` (`Props/DbCache`): the same answers when all calls share the dictionaries of computed vectors (C128).
  `C127_evaluation_dictionaries` (`Model/DbEvalNets`, `Props/DbEvalNets`): the same for evaluations whose tasks share the
  dictionaries; a task (`HProg`) is a tree of dataset operations and running calls of the recommender, and replacing the
  calls by the function in memory (`HProg.erase`) gives exactly the tasks of C109.  `C127_dictionaries_return`: complete
  runs exist.
* **C126** proved (`Model/DbList`, `Spec/DbList`, `Lemmas/DbList`, `Props/DbList`).  `ListSampler` and Caser as programs of
  dataset operations in the style of C116: the constructor, every pass of `sample_group_records` with its selections by
  group and threshold, `_sample_batch`, `_rank`.  The records read back have exactly the columns of the dataset (`asRead`),
  so results are compared as dictionaries (`answersSeen`).  `C126_samples`, `C126_training`, `C126_answers` hold for every
  interleaving of any number of programs (`pool_results`), `C126_evaluation` for the evaluation tasks; `C126_returns` says
  that complete runs exist.  Conditions are those of C116; thresholds are printed without an exponent (`PrintedNum`).
* **C125** partial (`Model/DbGen`, `Spec/DbGen`, `Lemmas/DbGen`, `Lemmas/DbSampler`, `Props/DbGen`).  The generators of
  `select_random_generator` and `null_interaction_pair_generator` as objects with a state, running on the objects and
  tables of `Model/Db`: the copies they make, the queries they write, and when they finish.  `C125_samples_partial`: mixed
  with any admissible operations that do not change the sampler's datasets in place, every sample is a record reaching the
  threshold or a pair without one.  An invariant ties the hidden copies to the rows of `Model/Sampler`, and C68 says which
  pairs are meant.  `C125_reaches`: every such record and pair can come next at any time.  `C125_starts`,
  `C125_leaves_data`: no dataset shows a difference.  `C125_no_positive`: when no record reaches the threshold the sampler
  is still made, its first positive sample raises, and all later ones are triples of nulls (**disagreement**: the exception
  finishes the generator and the default of `next` is used).  `C125_fails_changed` (**disagreement**): with a threshold the
  sampler works on a copy, so after filtering the dataset in place removed records are still sampled.
* **C124** partial (`Model/SqlStmt`, `Spec/SqlStmt`, `Lemmas/SqlStmt`, `Props/SqlStmt`).  The texts of `len`, `count_unique`, `max`, `min`,
  `DELETE`, `INSERT … SELECT`, `INSERT … VALUES`, `UPDATE`, `SELECT DISTINCT … ORDER BY` and the id lookups are read by `sqlExec`, an
  extension of the reader of C123.  For every history of filters the reading statements return what `World.look` returns
  (`C124_read_partial`), deleting and copying leave the tables of `World.shrink` and `World.split` (`C124_shrink_partial`,
  `C124_split_partial`), the loop of updates gives `numberBy` (`C124_ids_partial`).  Partial because of the names: a column called `order`
  in an existing database file cannot be read or changed (`C124_columns_fail`).
* **C123** partial (`Model/Sql`, `Spec/Sql`, `Lemmas/SqlLex`, `Lemmas/Sql`, `Props/Sql`).  The texts `select`, `drop`, `unique`,
  `_build_new_state` and `_build_table` put together, and a reader for the part of SQL they are written in: words, numbers (with
  points and exponents), quoted texts, nested selections, AND/OR, IN and NOT IN, MIN with GROUP BY, LIMIT, CREATE TABLE.  Proved by
  induction over the filters: the words of a statement are determined piece by piece, the reader gets back the tree of `Model/Db`,
  and its result is that of `evalSrc`.  This closes the gap between the trees of `Model/Db` and the strings of the code.  Missing,
  because false: texts with double quotes (`C123_injection`: a query that selects every record; `C123_quotes_fail`: one that raises) and columns that are SQL words or
  differ in case only (`C123_columns_fail`: the table cannot be created).
* **C122** partial (`Model/FloatEval`, `Spec/FloatEval`, `Lemmas/FloatEval`, `Props/FloatEval`).  The evaluation of C44 with
  every sum and quotient rounded to a double.  Runs are serialised as in C44, so each run adds up the users in one order
  (`C122_ranking_every_run`, `C122_recommendation_every_run`); tasks run one after the other in any given order show that
  every order occurs (`C122_every_order`).  `C122_close_partial`: relative error `(n + 1) / 2 ^ 52` of the mean, hence at most
  one unit in the fourth decimal.  *Disagreement:* `C122_order_fails`, two interleavings of one evaluation with four users
  report a recall of 0.1938 and 0.1937.
* **C121** partial (`Model/Float`, `Spec/Float`, `Lemmas/Float`, `Props/Float`).  `toFloat` rounds to 53 binary digits, ties
  to even; `C121_nearest` shows that no double is closer.  The splits and `n_neg_interactions` compute their shares with it, so
  C32, C34, C38, C73 and C115 hold for the rounded product (at most 2^53 records; for C34 the ratio is a double).  The share is
  monotone, at most one off, and a share below 1 never takes everything.  *Disagreements:* `C121_ratio_fails`,
  `C121_third_fails`, `C121_split_fails` (a `random_split` of 90 records with 0.7 has a test set of 62).
* **C120** partial (`Model/TableNames`, `Spec/TableNames`, `Props/TableNames`).  `str(random.random()).split(".")[1]` with the
  formatting of CPython; `PrintedAs` says what is used about `repr`: the printed number is nearer to the drawn one than to any
  other value of `random.random()`.  `C120_history_partial` removes the assumption of `Model/Db` that table names are fresh for
  different numbers of at least about 0.0001.  *Disagreements:* `C120_small_fails` (below 0.0001 `str` uses the scientific
  notation, so the name contains `-` or there is no point to split at), `C120_repeated_fails` (the same number again, as after
  seeding the global generator twice, names an existing table), `C120_apply_fails` (`_col_types` stays changed).
* **C104** partial (`Model/DbIndex`).  The id indexes beside the tables; in every history on a csv import the model
  with indexes does the same as the one without.  *Disagreement:* on a dataset opened from a `.sqlite` file
  `assign_internal_ids` drops the indexes of the user's file before it raises, and from then on raises because
  they are gone (`Model/Db` without indexes says `TypeError` for all attempts).

### Files (`Model/Csv`, `Model/Files`)

* **C26** partial.  The csv state machine, type inference, and the chunked import.  *Disagreement:* a
  quoted field with a line break is read or not depending on the chunk size; an empty file with header
  raises.  Proved for files where no line ends inside quotes, for all chunk sizes, with and without a line
  end after the last line.
* **C27** partial.  Save followed by load, both backends.  *Disagreement:* texts with commas (database),
  texts that look like numbers, missing numbers (database), empty datasets, pandas' NA tokens and leading
  zeros.
* **C103** partial (`Model/CsvBoth`).  C26's import and the pandas import end to end, on top of which C25 is
  used for histories.  *Disagreement:* mixed columns, missing numbers, missing interactions, blank lines,
  truth values and NA tokens are read differently by the two backends.  `C103_types_memory` and
  `C103_types_partial` say what the column types tell about the cells.
* **C28** partial.  All crash points of `save` for `.sqlite`.  *Disagreement:* overwriting removes the old
  file before the new one is in place.  Proved: no partial content is ever visible, and new paths are
  atomic.
* **C29** partial.  Registry of temporary files as text.  *Disagreement:* paths with a line end or leading
  blank.  Proved for all other paths, which includes every name the library generates.
* **C30** partial.  *Disagreement:* the in-memory `save` ignores `columns`; the database `save` writes the
  characters of the text for a single column, raises for a single number, keeps a repeated `rid`, and
  edits the caller's list.
* **C31** proved.  The factory with abstract constructors.
* **C89** partial (`Model/MemCreate`).  Required columns in both csv imports and in dataframes.
  *Disagreement:* the three assignments run one after the other, so an item label `user` finds the column
  made by the first one: the dataset has no users and the items are the users.
* **C90** partial.  The constructor on a heap of dataframes, and the copy made by `read_df`.
  *Disagreement:* labels that name the standard column of another label (exchanged labels lose both
  columns); labels are compared with `is not`, so an equal text that is another object loses its column.
* **C91** partial.  *Disagreement:* the index labels of the dataframe become record ids, and after a
  concatenation they repeat.
* **C72** partial.  Integrated datasets, all crash points.  *Disagreement:* truncated files are used.
* **C94** partial (`Model/ValueGen`).  The value generator as a state machine over one cursor; invariant
  and simulation by the in-memory generator for every program of `next`, loops and `close`.
  *Disagreement:* after the end, another loop raises instead of giving nothing.
* **C95** partial (`Model/Encoding`, over the UTF-8 functions of Lean's library).  *Disagreement:* files
  are written as UTF-8 and the Book-Crossing files are read as Latin-1, so non-ASCII ids change at the
  download and again between the first and the second call; the database import opens the file once
  without the given encoding.
* **C76** partial (`Model/DbSave`).  Content of the `.sqlite` file after any admissible history, for every
  chunk size, and opening it again.  *Disagreement:* internal ids are written although the documentation
  says never; a dataset opened from a `.sqlite` file has no column types, so it can never be saved as one.
* **C77** partial.  *Disagreement:* for the same reason `save()` without a path raises after every history.
  Proved that it then leaves the file alone.
* **C74** partial.  *Disagreement:* with a delimiter of several characters fields with commas are cut.

### Splits (`Model/Splits`, `Random`, `Threads`)

* **C32** proved.  `random_split`; partition, exact size, every choice possible.
* **C33**, **C34** partial, **C37** partial, **C38** partial.  `leave_k_out` and `matrix_split` as tasks
  over a shared heap.  Proved for integer user ids and all interleavings.  *Disagreement:* user ids are
  put into query texts without quotes, so text ids fail in the worker: nothing is split, and with a
  progress bar the call never returns.
* **C35** partial.  *Disagreement:* the code pops the last listed records, not the latest ones.
* **C36** proved.  No lost updates; results independent of the schedule.

### Metrics (`Model/Metrics`)

* **C39**, **C41**, **C42** proved over ℚ; **C40**, **C43** proved over ℝ.  NDCG uses the rearrangement
  inequality.  The two sklearn functions are their mathematical definition.

### Evaluation (`Model/Evaluation`)

* **C44** proved.  All interleavings of worker tasks; the means are over exactly the users for whom the
  metric is defined.
* **C45** partial.  *Disagreement:* a failing user in `recommendation_evaluation` makes the loop wait for
  ever; text user ids always fail.
* **C46** partial.  *Disagreement:* listed negatives may repeat or be positives of the train set.
* **C47** partial.  *Disagreement:* internal ids are used as raw ids.
* **C48** partial.  *Disagreement:* the item with the lowest interaction is chosen.
* **C49** partial.  *Disagreement:* two instances of one metric class share an entry.
* **C50** proved.  `predictive_evaluation` for every predict function.
* **C73** proved.  What ranking and recommendation tasks hand to the model and the metrics.

* **C92** partial (`Model/MetricCall`).  The dispatch by `co_varnames`, and the metrics of the library as
  instances of it; `C92_left_out` is about arguments that are not given.  *Disagreement:* a local variable named like an argument breaks a metric silently.
* **C93** partial.  Mean over all evaluated users, combined with C44 for all interleavings.
  *Disagreement:* a division by zero is swallowed and drops the user: F-score without hit, precision
  without recommendations.
* **C99** partial (`Model/EvalCall`).  The checks in front of both processes and the tasks they start.
  *Disagreement:* an empty list of cut-offs is accepted, and `max(k)` then raises in every task.

### Recommenders (`Model/Recommender`, `Fit`, `Knn`, `KnnMem`, `Similarity`)

* **C51** proved.  `recommend` for every prediction function; heap-free statement.
* **C52** partial.  *Disagreement:* unreadable ids raise although unknown items are to be skipped.
* **C53** partial.  *Disagreement:* CDAE gives a vector for an unknown item.
* **C54** partial.  *Disagreement:* a metric missing from a callback shifts its epochs.
* **C55** partial.  *Disagreement:* weights of layers are stored by reference; epoch 0 means the last one.
* **C56** partial.  *Disagreement:* zero epochs, or no validation results, raise.  The theorem is an iff.
* **C57** partial.  *Disagreement:* `fit(copy_dataset=True)` calls a method that no dataset has.
* **C58** proved.  The loss tracker, all operation sequences.
* **C59** partial.  *Disagreement:* a second fit keeps similarities of the first.  The theorem says exactly
  when a second fit is as good as a fresh one.
* **C60** proved.  Six similarities: values, symmetry, bounds (Cauchy-Schwarz), diagonal.  Plain cosine
  gives 0 on the diagonal of an all-zero row, and the two Jaccard implementations differ when zeros are
  stored; both are visible in the hypotheses.
* **C61** proved.  The merge walk, by a loop invariant.
* **C62**, **C63** proved.  Neighbour lists and aggregation, for any similarity function with one value per pair
  (`C62_one_value`: all six have); `Props/KnnMem` ties the record lists to the
  in-memory dataset.
* **C64** partial.  *Disagreement:* `UserKNN` ranks and predicts differently with averages on or with
  repeated ratings.  `ItemKNN` is proved.
* **C65** partial.  *Disagreement:* the range ignores the 0 of sampled negatives when the smallest value
  is above 1; a single value divides by zero.
* **C66** partial.  *Disagreement:* Caser ignores the given items with `novelty=False`.
* **C75** proved.  Training stops at the first epoch where the rule asks for it.
* **C78** partial (`Model/Refit`).  Fitting an object again, after any number of fits.  *Disagreement:* variables
  of earlier fits stay registered, so a second fit of CDAE or Caser always raises, and early stopping goes
  back to an epoch of the first fit.  Proved for DMF, and whenever the loss still depends on all trainables.
  `C78_registered` says what the three networks register, `C78_caser_reg` and `C78_dmf_reg` that the variables
  taken as regularized are those whose squares are in the loss.  The hypothesis that the same training takes place (`SameTraining`) excludes
  optimizers that count their calls: with Adam the networks of the first fit change the steps of the second (`C142_refit_refuted`).
* **C142** partial (`Model/Optimizer`, `Spec/Optimizer`, `Lemmas/Optimizer`, `Props/Optimizer`).  An optimizer is a step function of call number,
  slots and gradient, the same for every entry of every variable.  *Disagreement:* `_update_weights` calls `apply_gradients` once per trainable
  and tensorflow counts calls, so with Adam the k-th trainable takes step (e - 1) * n + k in epoch e instead of step e (`C142_exact`); its bias
  correction is too small, for all recommenders of the library (`C142_models_refuted`).  Proved for optimizers that do not count.
* **C143** partial (`Model/Training`, `Spec/Training`, `Lemmas/Training`, `Props/Training`, `Props/TrainingData`).  The losses of the three networks
  as functions of all weights, their gradients as derivatives, and the epochs as steps of the optimizer of C142.  Renumbering moves the elements
  of the weights (rows, or columns for CDAE's second matrix); the loss of the moved weights on the renumbered batch is the same, so the
  gradient moves along, so does the state of the optimizer, and by induction so do the weights of every epoch.  On datasets the renumbering comes
  from the order of the records (C110) and moves the interaction vectors.  Disagreement: equal scores are ordered by internal id
  (`C143_fails_ties`, `recommender_abc.py:461`, `cdae.py:103`).  Not modelled: that the samplers draw other samples after renumbering.
* **C144** partial (`Spec/Untouched`, `Lemmas/Untouched`, `Props/Untouched`).  For a weight of a user or item that the batch does not use the
  loss is `rest + c · x²`, so its derivative is `2 · c · x`; by induction over the epochs the weight is multiplied by `1 - 2 · lr · c`, or stays
  when `c = 0`.  *Disagreement:* Adam divides by the size of the derivative, so a tiny regularization still moves such weights by nearly the
  learning rate in every first step (`C144_adam_refuted`, `recommender_abc.py:153`).
* **C145** proved (`Lemmas/Descent`, `Lemmas/DescentCdae`, `Props/Descent`).  Along the step of the optimizer the loss has the derivative
  `-Σ d·g` (chain rule on the finitely many weights of the network); steps that point the way of the derivatives make it negative.  CDAE's loss
  is written as a formula and is differentiable wherever the loss between two numbers is; DMF's is differentiable where no value is at a bound
  (`Spec/Descent`, `Lemmas/DescentDmf`, `Props/DescentDmf`), Caser's where moreover each pooled filter has one largest value or is constant
  nearby (`Spec/DescentCaser`, `Lemmas/DescentCaser`, `Props/DescentCaser`).  Witness `C145_large_refuted`: too large a learning rate raises the loss.
* **C146** partial (`Props/Registered`).  The records of weights that the networks are built from agree when the registered variables do (for
  Caser only the first `L` horizontal layers are read).  With C55 this says which epoch's predictions a fitted model gives.
  *Disagreement:* with early stopping DMF and Caser predict as after the last epoch, not the best one.
* **C147** partial (`Model/Validation`, `Props/Validation`).  The evaluation (C44) always reports every metric, so the results of the callback
  are dictionaries with the same names and C54 applies; C55 and C146 then say what the fitted model scores.  *Disagreement:* DMF and Caser
  score as after the last epoch.
* **C148** partial (`Spec/Batches`, `Props/Batches`).  By the formulas of C145 the loss of a batch of DMF or Caser is the mean of the losses of its
  samples; a mean does not depend on the order.  *Disagreement:* for CDAE the samples are mixed up (C85); with two users the loss of the batch
  differs from the mean of the two losses.
* **C149** proved (`Model/CustomDeep`, `Props/MeanTargets`).  Both losses are affine in the wanted value up to a term without the prediction, so in the
  sum over all pairs of predictions and wanted vectors (C85) the derivatives contain the wanted vectors as their sum only.  *Disagreement* with the
  purpose of the code: who of a batch has which interactions does not reach the weights through the targets.  The same broadcast is in
  `examples/custom_deep_recommender.py`, which moreover ranks all items by their internal ids.
* **C150** partial (`Model/Diverged`, `Props/Diverged`).  The loop of the rule and the loss tracker with NaN; the invariant of C54 for the numbers
  among the values.  *Disagreement:* a NaN in the first validation (for instance of the untrained model) hides all others.
* **C151** proved (`Lemmas/Epochs`, `Lemmas/EpochsDmf`, `Lemmas/EpochsCaser`, `Props/Epochs`, `Props/EpochsDeep`).  As the learning rate goes to 0 all weights of the first epochs go to the first weights, so the
  derivatives go to the first derivatives and what Adam or momentum has stored goes to a multiple of them; every step divided by the learning rate
  therefore goes to a direction in which the loss rises, and the loss is strictly differentiable there.
* **C152** partial (`Model/NanRank`, `Props/NanRank`).  `heapq.nlargest` as in the standard library (heapify, heapreplace, final sort) with Python's
  comparison of tuples that hold NaN.  Every operation on the heap permutes it, so the results are candidates, whatever the comparisons say.  With one
  result the code is `max`, by induction over the list.  `list.sort` is any function that permutes its list and leaves one without a descent alone.
  Without NaN the heap is one (`siftup_heap`, `heapify_heap`: parents are not larger than children, but for one hole that moves down and up again), so its
  top is the smallest and what is dropped is not larger than what is kept (`C152_numbers`); the result is then the list `sorted(.., reverse=True)[:n]`
  of the documentation, by which `Model/Recommender` and all properties on rankings model `nlargest` (`C152_documented`).
  Caser, CDAE and ItemKNN pass a list, which is sorted without a heap when it is not longer than n (`C152_list_*`).
  The code violates the rest: NaN as the first score is the best item (`C152_first`), NaN in the first n scores keep all numbers out (`C152_blocked`), and scores 1, NaN, 2 are ranked in this order
  (`C152_order_refuted`).

### Networks (`Model/Nets`, `Model/CaserNet`, `Model/DmfNet`)

Weights are arbitrary, numbers are real.  For Caser `Model/Nets` has the shapes, with `none` when tensorflow raises, and
`Model/CaserNet` the contents; for DMF `Model/Nets` has open networks, `Model/DmfNet` the layers.

* **C79** proved.  Score between 1e-6 and 1 by Cauchy-Schwarz, then rescaled.
* **C80** partial.  *Disagreement:* without `use_nce` the predictions are rescaled although the targets were not
  standardised.
* **C81** proved (real numbers; C139 shows that "strictly below 1" is lost in single precision).
* **C82** partial.  *Disagreement:* with threshold 0 every absent item counts as liked, and values of repeated
  records are added up before the comparison.  The part on corruption is proved.
* **C83** partial.  *Disagreement:* with a single user the item vector cannot be computed.
* **C84** partial.  *Disagreement:* users with fewer than `L` records cannot be ranked, `L > n_h` cannot be trained,
  and neither can datasets without the sort column.
* **C85** partial.  *Disagreement:* predictions of shape (B,1,I) are broadcast against vectors of shape (B,I), so each
  reconstruction is compared with the vectors of all samples.
* **C86** proved.
* **C87** partial.  *Disagreement:* repeated records count as other pairs; an empty dataset divides by zero.
* **C88** partial.  *Disagreement:* recommendations are computed from disliked items too.
* **C134** partial (`Model/CaserNet`, `Spec/CaserNet`, `Lemmas/CaserNet`, `Props/CaserNet`).  `_predict_batch_aux` operation by
  operation on batches (embeddings, `Conv1D`, `max_pool1d` with `SAME` padding, `squeeze`, `concat`, dropout, dense layer, product), and
  the paper's formulas with sums and maxima as specification.  *Disagreement:* `conv_v` is a `Conv1D` over the whole sequence with
  `L * d` weights per filter; it gives one number per filter and mixes the latent dimensions, where the vertical layer of the paper
  gives `d` numbers per filter (the `input_shape` of the dense layer, `d * n_v + n_h`, counts them).  `C134_shape` links the contents
  with the shapes of C84.
* **C135** proved (`Model/DmfNet`, `Spec/DmfNet`, `Lemmas/DmfNet`, `Props/DmfNet`).  The layers of DMF, the two normalisations, the
  product and the bound on batches; the specification is a recursive formula for representations, and the cosine.  `C135_instance`
  makes this network an instance of the model with open networks of C79, C80 and C83.
* **C136** partial (`Model/DmfFloat`, `Spec/DmfFloat`, `Lemmas/DmfFloat`, `Props/DmfFloat`).  `l2_normalize`, the product, the bound and
  `_rescale_value` with 24 binary digits.  As TensorFlow leaves the order of `reduce_sum` and the last digits of `rsqrt` open, scores are
  a relation: any order and grouping of the sums, any reciprocal root within four rounding errors.  Proof: induction on how the sum was
  added, then relative errors of each number of the normalised vectors and Cauchy's inequality.  *Disagreement:* rounding lets scores
  exceed 1 and predictions exceed the largest interaction (representations (2, 3, 6), every operation rounded correctly).
  Simplifications: unbounded exponents; the representations are arbitrary.
* **C138** proved (`Model/DmfTower`, `Spec/DmfTower`, `Lemmas/DmfTower`, `Props/DmfTower`).  The rounding of the interactions, their
  normalisation and the `Dense` layers with 24 binary digits, again as relations: the sums are added in any order and grouping, with or
  without fused multiply-add.  The bound counts the operations on the way to one number (`stepsOf`) and multiplies them with the same
  network without signs (`reachOf`); proof by induction on the layers.  Scores: the cosine changes by at most twice the relative errors
  of both vectors, then C136.  *Disagreement* with exact arithmetic: `C138_cancel_refuted`.
* **C139** proved (`Model/CdaeFloat`, `Spec/CdaeFloat`, `Lemmas/CdaeFloat`, `Props/CdaeFloat`).  Each hidden unit and each output is any
  rounded sum of products (`Dotted`, as in C138) followed by a rounded sum with the bias and a sigmoid that may be off by four units
  in the last place.  The sigmoid is 1/4-Lipschitz, so the error of the argument is divided by four and the error of the hidden
  layer enters the second sum through the absolute weights.  *Disagreement* with exact arithmetic: `C139_saturated_refuted`.
* **C140** proved (`Model/CaserFloat`, `Spec/CaserFloat`, `Lemmas/CaserFloat`, `Props/CaserFloat`).  The errors of embedding, convolutions,
  pooling, layer and score are carried along as relative errors with respect to the network of the absolute values, in which nothing
  cancels; activation and pooling do not round and are monotone.  *Disagreement* with exact arithmetic: `C140_order_refuted`.
* **C141** proved (`Model/FloatMetrics`, `Spec/FloatMetrics`, `Lemmas/FloatOff`, `Lemmas/FloatMetrics`, `Props/FloatMetrics`).  `Off k x y` says
  that y is x times factors whose distance from 1 adds up to k roundings; sums, products, quotients and roots of such pairs are such pairs, and
  the bounds follow.  Two different shares with denominators up to 2^25 are further apart than their rounding errors (C141_order).
  *Disagreement* with exact arithmetic: `C141_between_refuted`, `C141_ndcg_refuted`, `C141_mae_refuted`, `C141_rmse_refuted`.

### Samplers (`Model/Sampler`)

* **C67**, **C68** partial.  *Disagreement:* in memory, pairs with only below-threshold records are never
  yielded; in the database, positive pairs with several records are.
* **C69** proved.  **C71** proved.
* **C70** partial.  *Disagreement:* below the cap positives and targets swap lengths; between `max` and
  `max + n_targets` the call raises.
* **C101** partial (`Model/Seeded`).  CPython's `randint` and `uniform` over a stream of 32-bit words, which all
  three random sources of a `PointSampler` share when a seed is given.  Theorems hold for every stream.  Proof of
  the bias: a value of `uniform` of at most 1 bounds the leading bits of its first word.  *Disagreement:* those bits
  are the first uid that the positive generator draws.

## 4. Trusted base

* The Lean 4 kernel.  No axioms of our own; no `sorry`, `native_decide` or `bv_decide`.
* Axioms used by the theorems in `MANIFEST.json` (from `#print axioms`):
  - no axioms: `C02_operators_distinct`, `Dl.C113_frozen`, `C72_whole_partial`, `C72_between`.
  - propext: `Dl.C113_request_fails`, `Div.C150_first`, `Div.C150_numbers`, `NanRank.C152_first`, `C29_cleanup_registry`, `C84_no_sort_column`, `C94_nexts`.
  - propext, Quot.sound: `C05_drop_keep`, `C05_unknown_ids`, `C06_idempotent`, `C07_memory_list`, `C07_db_list_partial`, `C07_db_list_modified`, `Dl.C113_first`, `Dl.C113_clean`, `Dl.C113_names`, `Dl.C113_died_partial`, `Dl.C113_bad_partial`, `Dl.C113_page_partial`, `Dl.C113_fails_answer`, `Dl.C113_full`, `Pick.C131_others`, `Miss.C133_select_partial`, `Miss.C133_select_refuted`, `Miss.C133_relevant`, `Miss.C133_reported`, `NanRank.C152_blocked`, `NanRank.C152_threshold`, `NanRank.C152_order_refuted`, `NanRank.C152_list_order_refuted`, `C26_chunks_partial`, `C26_last_line_partial`, `C26_fails_empty`, `C29_listed_partial`, `C29_files_partial`, `C29_unregister_raises`, `C36_no_lost_update`, `C45_recommendation_ends_partial`, `C50_count_none`, `C57_in_place`, `C62_dense`, `C70_lengths_swapped`, `C70_range_error`, `C72_fails`, `C72_fails_test`, `C72_beginning`, `C72_disjoint`, `C89_csv`, `C89_frame_partial`, `C89_fails`, `C90_fails_exchanged`, `C90_fails_identity`, `C90_constructor_writes`, `C91_fails`, `Lock.C98_no_lock_partial`, `Lock.C98_reads_partial`, `Lock.C98_fails_apply`, `Lock.C98_fails_random`, `Lock.C98_fails_values`, `Lock.C98_close_releases`, `Lock.C98_own_generators`, `Lock.C98_fails_own`.
  - `propext`, `Classical.choice`, `Quot.sound`: the other 775 theorems.
* That the definitions say what the Python code does (each cites its source lines).
* That Python's built-ins and pandas, numpy, scipy, sklearn, sqlite3, csv, heapq, random and tensorflow
  behave as described in the comments of the definitions that use them.

## 5. What is modelled and what is not

Modelled: see the citations in `Model/*.lean`.  In short: `Dataset/mem_dataset.py` and
`Dataset/db_dataset.py` (all public methods), `dataset_abc.py` (query and column handling),
`dataset_factory.py`, `file_utils.py`, `integrated_datasets.py` (generation of train and test files, downloads),
`Evaluation/Splits/*`, `Evaluation/Processes/*`, `Evaluation/Metrics/*`, `Evaluation/loss_tracker.py`
(numbers, not plots), `Sampler/*`, `Recommender/recommender_abc.py`, `Recommender/EarlyStopping/*`,
`Recommender/Baseline/*`, `dmf.py`, `cdae.py` and `caser.py`.

Of the examples, the callback of `cdae_validation.py` and the recommender of `custom_deep_recommender.py`.

Not modelled: tensorflow beyond what `Model/Nets`, `CaserNet`, `DmfNet`, `Loss`, `Optimizer` and `Training` define (in `Model/Fit` training steps are
arbitrary functions), plotting, progress bars
except for the waiting loops, the transfer of downloads, the layout of log output, the bytes of pickle files (their structure
is in `Model/SaveLoad`), floating point rounding outside the models named in section 2.

Simplifications, by area:

* *In memory:* timestamps are numbers; splits, evaluation and recommenders run over the in-memory
  dataset (on a database dataset: `Model/DbSplits`, `DbEval`, `DbKnn`, `DbGen`, `DbList`, `DbNets`); `standardize` divides exactly, division by zero is an error; thresholds that Python prints with
  an exponent are left out.
* *Database:* statements are atomic and rows come in the order of their ids; `Model/Db` leaves out locks and
  transactions (they are in `Model/DbLocks`, without the data), closed objects that are used again (in
  `Model/DbClosed`) and cursors (in `Model/ValueGen`); random table names are fresh; the id
  indexes are in `Model/DbIndex`, the others are left out; a text containing a double quote is an error; no affinity conversion when comparing columns;
  the empty table that a failed split leaves behind is left out;
  `updateLoop` reads a snapshot and assumes aligned columns; `SELECT DISTINCT ... ORDER BY rid` is
  first-appearance order.
* *Files:* csv texts after newline translation; distinct valid SQL column names; `Model/Csv` reads texts, so the
  same encoding in both passes (encodings are in `Model/Encoding`); file operations are atomic; the factory's constructors change only the list they get;
  index labels of dataframes are natural numbers.
* *Evaluation:* the model's `rank`, `recommend` and `predict` are arbitrary functions; C73 is for integer
  ids.
* *Fit:* the first fit, and later ones for C78 and (KNN) C59; no NaN metrics (they are in `Model/Diverged`); non-trainable weights of
  layers are left out; `tape.gradient` is `None` exactly for variables the loss does not depend on, and
  `apply_gradients` raises when it gets no gradient at all.
* *KNN and similarities:* lists of records (linked to the dataset by `Props/KnnMem`); the dictionary of an
  unknown user is empty instead of a `KeyError`; 1e-6 is exact; NaN results are absent entries; zero
  entries of sparse products are kept.

## 6. Mutation tests

`seeded/LOG.jsonl` has one record per attempt: a realistic bug is put into one definition in a scratch
copy, everything is rebuilt, and the theorems that fail are recorded.  Where nothing failed although the
claim was false, theorems were tightened (field `tightened`); where nothing failed because no claim is
broken (`breaks` starts with `none`), the record says so.
