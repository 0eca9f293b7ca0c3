# Formal model of microsoft/FeaturizersLibrary — design

Everything is under `lean/Verif`, namespace `Feat`:

* `Model/*`  – executable definitions, one per modelled C++ function, each with a comment citing file and lines in `/repo/src`.
* `Spec/*`   – small independent specifications (what the English property says), not using model helpers.
* `Proofs/*` – helper lemmas.
* `Props/*`  – the property theorems (named in `MANIFEST.json`), each next to an `example` showing that its hypotheses are met by a concrete non-trivial case.

A property that is false of the code is kept in full (`properties.jsonl`); its negation is proved by a witness (theorems named in the manifest), the part that does hold is proved with the suffix `_partial`, and where possible a theorem `…_exact` says what the code does on *all* inputs.

## Modelling conventions

* A C++ exception is `Except.error e` (`Err` mirrors the exception class). An operation on a mutable object has type `σ → Except Err α × σ` (`Op`), a call with a callback yields a `Run` (values passed to the callback, exception, state afterwards): the state *after* the call is always returned, also when it throws, so "a failed call changes nothing" is a statement, not an artefact.
* Undefined behaviour and non-termination are never silently totalised away: where the code can reach them the model has a distinct outcome (`Err.ub`, `none`/`pending` for loops that have not ended) or the property excludes them explicitly in its hypotheses. Violated `assert`s count as `ub`.
* Fixed-width integers that matter for overflow are `UInt8..UInt64`, or a class `CInt` (range, strictness of overflow, promotion) covering all eight C++ integer types; elsewhere `Int`/`Nat`.
* Floating point: code that only moves or compares floats is modelled over an arbitrary linear order or over bit patterns; code that computes with floats is modelled over an arbitrary ordered field (square root as a parameter where needed) or over the reals. Rounding, NaN and infinities are **not** covered there, and the theorem says "exact". Exceptions where rounding is modelled: C45 (`roundFloat`, counts to `float`), C50 (the double quotient by its error bound `IsDoubleQuotient`), C08 (floating point min-max scaler counterexample), C67 (texts of floating point numbers), C68 and later (IEEE 754 arithmetic on bit patterns, `Model/FloatArith`).
* `std::unordered_map` is an association list without duplicate keys; its iteration order is an arbitrary parameter (`IterOrder`) wherever the code iterates. `std::map` is a sorted association list (`OMap`), or a partial function where the order does not matter (C25). Floating point keys (NaN, ±0) are modelled for the histogram, order, index map and mode estimators and the label and one-hot encoders (`Model/FloatCategories`, C92), and not elsewhere.
* Callbacks are modelled as the list of values passed to them, in order (`Run`); a callback that throws, and the state it leaves behind, in `Model/Callbacks` (C79–C81). A callback that calls the transformer again is not modelled.
* Arbitrary code (estimator hooks, per-grain transformers, regular expression engine, allocator, random generator, `readdir` order) enters as a parameter over which the theorem quantifies.

## Trusted base

* Lean 4.33.0's kernel. Every theorem depends on at most the axioms `propext`, `Classical.choice`, `Quot.sound` (`vcheck` prints this; none are added and nothing rests on compiled evaluation).
* The reading of the C++ source into the model (not machine checked). Each definition cites what it models and states its simplifications.
* C++ library facts assumed: `memcpy` of scalars copies their object representation; `std::sort`, `nth_element`, heaps (`priority_queue` as a sorted list), maps and `accumulate` behave as the standard says; `gmtime_r` returns the Gregorian calendar date (contract `IsGmtime`, satisfied by an explicit algorithm); the `strtol` family in the "C" locale with 64-bit `long`; `isspace`, `ispunct`, `tolower` in the "C" locale, false/identity for bytes ≥ 128; `std::vector` capacity equals the reserved size in `CircularBuffer`.
* Exactly modelled third-party code: MurmurHash3_x86_32 (`Model/Hash`), `date.h`/`iso_week.h` day arithmetic (`Model/DateTime`).
* Not modelled: memory exhaustion (except C74), destructors/aliasing/moves (except object lifetimes behind C handles), lifetime of the pointers used as keys of annotation maps, threads other than through the mutex-serialised handle table (C51, C62), performance, JSON parsing of holiday data, ONNX glue, template machinery, the solvers of Eigen (C77 and C78 suppose their documented contracts) and rounding in PCA and TruncatedSVD, `std::regex` itself (parameter), n-gram sizes beyond unbounded naturals, message texts (represented by the exception they describe).

### Modelled source files

| source | model |
|--------|-------|
| `Archive.h` | `Model/Archive` (all public calls) |
| `Traits.h` | `Model/Traits`, `Types`, `Chrono`, `Strings` (serialisation, nullability, to/from string) |
| `Featurizer.h` | `Model/Estimator` (life cycle, annotations), `Model/Transformer` |
| `Featurizers/Components/Details/*`, `PipelineExecutionEstimatorImpl.h`, `TrainingOnlyEstimatorImpl.h`, `FilterFeaturizer` | `Model/Pipeline`, `TrainingOnly`, `ChainArchive`, `Filter`, `ComponentPipeline` |
| `HistogramEstimator.h`, `IndexMapEstimator.h`, `OrderEstimator.h`, label/one-hot/hash encoders, `NumericalizeFeaturizer.h`, `Structs.h` | `Model/Categorical`, `Encoders`, `Hash`, `Structs` |
| `StatisticalMetricsEstimator.h`, `StandardDeviationEstimator.h`, `MedianEstimator.h`, `ModeEstimator.h`, `MinMaxEstimator.h`, `FrequencyEstimator.h`, `TimeSeriesFrequencyEstimator.h` | `Model/Numeric`, `Categorical` |
| scalers (min-max, max-abs, robust, standard), `NormalizeFeaturizer.h` and norms | `Model/Scalers` |
| `CircularBuffer.h`, lag/lead, rolling windows, forward/backward fill, imputers, dummies and markers | `Model/Windows`, `Fills`, `Transformers` |
| `TimeSeriesImputerTransformer.h`, `TimeSeriesMedianEstimator.h`, `TimeSeriesImputerFeaturizer.h` | `Model/TimeSeriesImputer`, `TimeSeriesTraining` |
| `GrainFeaturizerImpl.h`, `ShortGrainDropperFeaturizer.h` | `Model/Grain`, `ShortGrainDropper` |
| `PivotFeaturizer.h` | `Model/Pivot` |
| `Strings.h`, document statistics, count and tf-idf vectorizers | `Model/Strings`, `DocStats`, `Vectorizer` |
| `FromString`, `String`, date-time featurizer, holidays | `Model/Text`, `DateTime`, `DateText` |
| texts of containers | `Model/ContainerText` |
| floats of document statistics (bounds on the document frequency) | `Model/FloatDocs` |
| data directory of the date-time featurizer: open streams, data roots, archives | `Model/DataDirectory` |
| numbers of the median strategy of the time series imputer on `double` (instance of the operations that `Model/TimeSeriesTraining` is written over) | `Model/FloatTimeSeries` |
| `Components/GlobalMinimumFrequencyEstimator.h`, `GrainedFrequencyEstimator` (made for one column) | `Model/GlobalFrequency` |
| training through the C interface of the time series imputer | `Model/RowTraining` |
| archive constructor of the time series imputer, checks in order | `Model/TimeSeriesLoad` |
| grained lag/lead operator and rolling windows: estimators, archives, pipeline | `Model/GrainedWindows` |
| archives behind the C interface | `Model/CArchives` |
| `Transform` and `Flush` with arrays of items (`SharedLibrary_BackwardFillImputerFeaturizer.cpp`) | `Model/CGather` |
| max-abs scaler, standard scaler and categorical imputer behind the C interface (SharedLibrary_MaxAbsScalerFeaturizer.cpp, SharedLibrary_StandardScaleWrapperFeaturizer.cpp, SharedLibrary_CatImputerFeaturizer.cpp) | `Model/CScalers` |
| one-hot encoder and numericalize behind the C interface (SharedLibrary_OneHotEncoderFeaturizer.cpp, SharedLibrary_NumericalizeFeaturizer.cpp) | `Model/CEncoders` |
| mean and median imputer behind the C interface (SharedLibrary_MeanImputerFeaturizer.cpp, SharedLibrary_MedianImputerFeaturizer.cpp), without `bool` and strings | `Model/CImputers` |
| robust scaler behind the C interface (SharedLibrary_RobustScalerFeaturizer.cpp) | `Model/CRobust` |
| min-max scaler behind the C interface (SharedLibrary_MinMaxScalerFeaturizer.cpp) | `Model/CMinMax` |
| featurizers without training behind the C interface: forward fill, null indicators, hash encoder (Components/InferenceOnlyFeaturizerImpl.h and the generated files) | `Model/CInference` |
| conversions from and to text behind the C interface (SharedLibrary_StringFeaturizer.cpp, SharedLibrary_FromStringFeaturizer.cpp) | `Model/CStrings` |
| options of the tf-idf vectorizer as numbers | `Model/TfidfCodes` |
| histogram, order, index map and mode estimators, label and one-hot encoders and numericalize on `float` and `double` | `Model/FloatCategories` |
| rows of the C interface of the time series imputer | `Model/RowCodec` |
| texts of floating point numbers (C library of GNU on x86, "C" locale, default rounding mode; compared by hand with glibc 2.x `strtof`, `strtod` and `printf` on 2916 texts and 1500 numbers without a difference) | `Model/FloatText` |
| floating point arithmetic of x86-64 (`float`, `double` in SSE registers, 80-bit `long double`; rounding to nearest even; no fused operations; compared by hand with the hardware on random doubles without a difference), min-max, max-abs, standard and robust scalers, row normalizers and mean, minimum, maximum and median imputers with it (the median heaps hold places in the order, so that the two zeros are one) | `Model/FloatArith`, `FloatScalers`, `FloatNorms`, `FloatStats`, `FloatMedian` |
| calculators of rolling windows for `float` and `double` | `Model/FloatWindows` |
| `CountVectorizerEstimator` around the tf-idf estimator; `SampleAddFeaturizer.h/.cpp` | `Model/CountEstimator`, `SampleAdd` |
| arithmetic of the tf-idf vectorizer on bit patterns; `std::log` only by a contract (relative error at most 2^-52) | `Model/FloatTfidf` |
| `PCAFeaturizer.h`, `TruncatedSVDFeaturizer.h` (exact arithmetic) | `Model/MatrixProjections` |
| `execute`/`flush` of every transformer with a callback that throws | `Model/Callbacks` |
| `StandardTransformer::execute` returning a value, empty callbacks, `FilterDecoratorFeaturizer.h` | `Model/ExecuteValue` |
| `PointerTable.h`, generated C interface, `SharedLibrary_RobustScalerFeaturizerCustom.cpp` | `Model/PointerTable`, `CApi`, `ConcurrentDestroy` |
| arrays passed to and results handed out by the generated C interface, memory management included | `Model/CBuffers` |

## Property by property

| id | model | proof |
|----|-------|-------|
| C01 | `Model/Archive`: archive = mode, bytes, cursor; every public call of `Archive` | invariant by induction over the operation list; witness for an advance past the address space |
| C02 | same | case analysis per operation + induction over operation lists |
| C03 | host byte order as a parameter, `swap_endian` as in the code | list reversal algebra, base-256 digit lemma |
| C04 | `Model/Traits`: serialise/deserialise for each trait; all nestings through the universe `Ty` | per-trait law, composed by induction on `Ty` |
| C05 | same | law "success on a buffer implies same result and consumption on any extension" + C04 |
| C06 | time point/duration codecs with truncating integer division | arithmetic on top of C04 |
| C07 | version header reader of every transformer | unfold; header decoder failure propagates |
| C08 | `Model/Transformers`: save/load of each transformer, constructor validation | codec laws of C04 + constructor re-acceptance; float min-max scaler: witness |
| C09, C10 | `Model/Estimator`: state machine with arbitrary (adversarial) implementation hooks | induction over call lists, counting |
| C11 | annotation store: list of maps | induction over add histories |
| C12 | `Model/TrainingOnly`: cap, existing annotation, wrapped estimator policy (arbitrary) | fold/append lemmas over batch lists; witness for estimators that need no training |
| C13 | `Model/Pipeline` training: list of stages with arbitrary hooks over one shared state, standard loop | equality with stage-by-stage training (`Spec/PipelineTraining`) by induction over stages and batches; order invariant for arbitrary stages; witnesses for nested pipelines and for transformers with state before a stage that stops early |
| C14 | transformer chain as in the code, flush included | induction over chain and inputs |
| C15 | chain save/load order as in the code | composition of round trip laws |
| C16, C17 | `Model/Filter` | direct, all column selections; C17 by simulation, witness for estimators needing `on_data_completed` |
| C18, C19, C21 | `Model/Categorical`: histogram, index map, mode as folds | fold invariants against `List.count`/`IndexMapSpec`/`IsMode` |
| C20 | `Model/Encoders` on top of `Model/ComponentPipeline` | training through the two-stage pipeline + encoder cases |
| C22 | two heaps | invariant of the heaps against the sorted list, uniqueness of the median |
| C23–C25 | `Model/Numeric` | fold invariants over `CInt` and over an ordered field; witnesses for the overflow corners |
| C26–C28 | `Model/Scalers`, integers with C++ promotion and an exact version | order/field lemmas; witnesses |
| C29–C31 | circular buffer with real start/offset arithmetic; lag/lead and rolling windows on top | simulation by list suffix, index algebra |
| C32–C34 | fills as state machines; imputers end to end through their training pipelines | induction over the series against `Spec/Series` |
| C35, C36 | time series imputer as state machine with the row generator, all keys interleaved | induction over rows and gaps against `expand`/`LatestValue`/`NextValue` |
| C37, C38 | grain map over arbitrary stateful transformers/estimators; archive of the map in any iteration order | projection lemma by induction on the interleaving; witnesses for the template archive bug |
| C39 | short grain dropper with 32-bit counters | count lemma; witness for wrapping |
| C40 | pivot loops over matrices | list lemmas; exact criterion for the exception |
| C41–C43 | string scanners with a predicate | induction; C43 exact behaviour and refutation |
| C44 | document statistics with pruning and top-k in any iteration order | sorting/permutation lemmas, determinism |
| C45, C54, C55 | count and tf-idf vectorizers on trained document statistics | fold lemmas over tokens; reals for tf-idf; the arithmetic of counting also on bits (`Model/CountBits`, simulation) |
| C46 | sparse vector constructors | acceptance conditions; witness |
| C47 | MurmurHash3 byte by byte with `int` lengths | bounds of every read; modulus |
| C48, C56 | digit loops of `to_string`/`strtol`/`strtoul`, range checks; string featurizers of all types (`Model/StringFeaturizers`) | digit round trip by induction; `Denotes` specification; floats and dates from C67 and C65 |
| C49, C57, C58 | day arithmetic over all integers, `to_time_t` truncation, ISO weeks | civil calendar correctness (`Spec/Calendar`), uniqueness; witnesses before 1970 |
| C50, C59 | holiday lookup with a double quotient under its error bound; country matching over any directory | error-bound arithmetic; list search lemmas |
| C51 | handle table: map handle ↦ pointer with the probing loop | invariant over operation lists |
| C52, C60, C61 | C functions over table + heap with an arbitrary featurizer | `body_matches`: every body equals the direct calls (`Spec/CApi`); induction over histories; witnesses |
| C53 | archive position and commit | as C01 |
| C62 | micro-steps of any number of destroying threads | invariant over interleavings; witness with a reused number |
| C63 | TimeSeriesMedianEstimator (sums and counts per key, exact field arithmetic), the imputer estimator and the pipeline frequency → median → imputer | invariant of the two trackers over the rows; lifting of component training into the pipeline (`trainStage_part`), C13, C25 and C36; witness that the value is not the median |
| C64 | the text preparation and parsing of `TextConfig.tokens` (Model/Strings, Model/DocStats) against Spec/Tokens (`cleaned`, `textWords`, `joinWords`, `windows`) | induction over the text: the cleaned text is its words joined by blanks, positions of words and separators in such a text; characters checked for all 256 bytes |
| C65 | `ToString`/`FromString` of time points with the parser and formatter of date.h, `CreateDateTime` (Model/DateText) against texts written from numbers (Spec/DateText) and the calendar of Spec/Calendar | reading each piece of the template consumes exactly its digits; membership of the characters that select the template; day numbers by `IsCalendar.eq`; for texts with `Z` a grammar (`UtcText`) and soundness and completeness of the reader; texts with too many decimals |
| C66 | the row serializer of `SharedLibrary_TimeSeriesImputerFeaturizer.cpp`, `Transform`, `Flush`, `DestroyTransformedData`, saving (Model/RowCodec) against typed values with their bytes and texts (Spec/RowCodec) | codec laws per type; an invariant of the imputer: every row it holds or puts out consists of texts of values of the declared types; induction over the calls; counterexamples for durations and flushing |
| C67 | `ToString` and `FromString` of float and double: `printf("%f")` and `strtof`/`strtod` on bit patterns with exact integer arithmetic (Model/FloatText) against IEEE 754 values in ℚ, "nearest" (Spec/FloatText) and the grammar of C, longest beginning that is a number (Spec/FloatGrammar) | rounding to a grid is unique and monotone; the exponent by `log2`; error bounds of the two roundings; byte-wise lemmas for the scanner; maximality of the scanned beginning for any set of digits (`Form.scan_parts`); exact integer and rational arithmetic for both formats at once (`Bridge`); corollary for C66 (Props/RowFloats) |
| C68 | min-max scaler (`Model/FloatScalers`) over IEEE 754 arithmetic on bit patterns (`Model/FloatArith`: finite, infinite, NaN, signed zeros, subnormal), values in ℚ | rounding as a monotone map from ℚ to places in the order of the numbers that fixes the representable ones (`rnd`); error bounds; integers to 2^53 are exact; `…_rounded` theorems: every operation is correctly rounded; witnesses by kernel evaluation |
| C69 | max-abs scaler (`Model/FloatScalers`) over IEEE 754 arithmetic | training is a fold over keys (`maxAbs_run`); one rounding in the quotient, so `rnd` monotone gives range, order, extremes and nearness (`Props/FloatMaxAbs`) |
| C70 | norms, normalizer (`Model/FloatNorms`) over IEEE 754 arithmetic, with the updater's state after an exception | error of a running sum by induction with factor (1+2^-64)^n; monotone rounding keeps each term below the sum, the square root above each element and the quotient within ±1 even after double rounding (`Proofs/FloatSums`, `FloatQuotients`, `FloatNorms`); the refutations use that a sum absorbs small terms (`add_absorbs`) |
| C71 | statistics, mean/min/max imputers (`Model/FloatStats`) over IEEE 754 arithmetic, 80-bit sums | error of the running sum as in C70; a sum of n values stays between n times the extremes as long as these are representable, by monotone rounding (`total_between`); integer sums exactly; refutation by computing the sum of 4096 equal numbers, where every tie rounds up |
| C72 | standard deviation, standard scaler (`Model/FloatStats`) over IEEE 754 arithmetic, 80-bit sums of squares | error of each rounded squared difference and of the running sum (`squares_run`), of square roots and quotients over the reals (`deviation_near`); distance of the root mean square about the computed mean from the standard deviation (`deviation_about`); refutation by computing the training on 0.1, 2.7, 1.4 |
| C73 | memory as typed blocks, reading loops of the generated `Fit`/`FitBuffer`/`Transform` (Model/CBuffers) against "memory holds these values" (Spec/CBuffers) | induction over the loops; out of bounds reads are the outcome `ub`; exact behaviour of the row loop for all lengths |
| C74 | allocator as an arbitrary function that may refuse, `new[]`, writes, `delete[]`, `std::unique_ptr` guards, the creating and destroying functions (Model/CBuffers) against `Results.Faithful` and histories (Spec/CBuffers) | a small separation logic: triples with footprints for creating, `Frees` for destroying, framing; invariant over histories: outstanding results own disjoint blocks (`Owned`); counterexamples with an allocator that serves one request |
| C75 | median estimator and median imputer (`Model/FloatMedian`): two heaps over places in the order of numbers, sum and half as `double` | the heaps of C22 over integers (`heaps_middle`); rounding is monotone, so the rounded half of a sum is between its parts, and halving is exact or a nearest number (`rnd_half`); overflow exactly when the sum is too large |
| C76 | robust scaler (`Model/FloatMedian`): median and statistics components, range ratio in `float`, width in the input type, scaling in the result type | error of each rounded operation (`rounded_error`), of the ratio (`ratio_spec`) and of width times ratio (`spread_product`); with the default range halving a rounded difference is rounding its half (`rnd_half`); refutations: infinite width, undefined integer width |
| C77 | PCAEstimator and PCATransformer over real matrices with dynamic dimensions (`Model/MatrixProjections`); the eigenvector solver is a parameter with Eigen's contract (`Spec/MatrixProjections`), met by a solver from the spectral theorem | invariant over call histories (`history`); orthogonality of the eigenvector matrix; refutation by a data set with a constant column, for all eigenvectors that meet the contract |
| C78 | `svd_flip`, `sample_gaussian`, `gram_schmidt`, TruncatedSVDEstimator and transformer over real matrices, `rand()` an arbitrary sequence (`Model/MatrixProjections`) | orthonormal-then-zero columns within the span (`gramSchmidt_spec`); algebra of the two-sided projection (`decomposition_of_bases`); dimension count when no column is dropped; refutations: all samples below the threshold (Gaussian numbers never exceed 7), sign flips decided by another row |
| C79 | `Model/Callbacks`: every call of `execute`/`flush` as a sequence of callback invocations with the transformer's state during each; callbacks arbitrary functions of the values passed before; filters, grains and pipelines built from it | induction over the call; each transformer's call equals its `Run` of the other models; for pipelines induction over the length (`Alike`: values, exception, and the state if there is none) |
| C80 | same; `Spec/Callbacks`: `Repeatable`, the stronger `Resumable`, `attempts` | what is left of a call at a callback (`Left`) is again the call from the state at that point; closed under filters, grains (map with the same keys), pipelines; counterexamples evaluated |
| C81 | same; `Skippable` | the state at every callback is the final one; counterexamples evaluated |
| C82 | `Model/FloatWindows`: the calculators on bit patterns; the windows are those of C31 | folds over the order of the bit patterns; error of the running sum by induction, (1+u)^n bounded; exactness when every partial sum is representable; counterexamples evaluated by the kernel |
| C83 | `Model/FloatTfidf`: the operations of C55's vectorizer on bit patterns, `log` any function within one unit in the last place of the real logarithm | relative errors (`Rel`) composed through cast, sums, root and quotient; the running float sum of positive weights by induction with factor (1+2^-24)^n; refutation by a sum of ones that stops at 2^24 |
| C84 | `Model/CountEstimator`: an estimator whose state is another estimator (`wrapHooks`), around the pipeline of C13 with the document statistics component | invariant of both training states over histories; the standard loop evaluated step by step on the pair (`wrap_trained`) and compared with training the component alone; with C45 |
| C85 | `Model/SampleAdd` | sum of the accepted batches by induction over histories |
| C86 | `Model/ExecuteValue`: the value-returning `execute` with its raw storage, around the programs of Model/Callbacks; objects that are never destroyed are recorded | each class yields one value or an exception; the pivot by its specification (C40) |
| C87 | `Model/ExecuteValue`: histories of public calls with optional callbacks | induction over histories |
| C88 | `Model/ExecuteValue`: filter decorator | projection of vectors, index by index |
| C89 | `Model/ContainerText`: the loops of `ToStringImpl`, `ToMapString`, `ToSetString` and the recursion over a tuple | texts of plain types are self-delimiting (never begin with a separator, and where one ends is determined): mutual induction over the types `Plain` |
| C90 | `Model/CApi`: `createWithDefault` among the calls of the C interface | the estimator behind the handle stays pending: one-step invariance from the correctness of the interface (C60), induction over histories |
| C91 | `Model/TfidfCodes`: execution from the numbers in an archive | agreement with `Tfidf.execute` for known numbers; weights are positive and finite (C83), so a norm that stays zero gives +infinity |
| C92 | `Model/FloatCategories`: tables as entries compared with floating point `==` (histogram) or `key_equal` (index map, order map; which entries are compared depends on an arbitrary bucket layout, `Probe`), `std::sort` undefined if `<` is no strict weak order on the elements | keys of the histogram are the first number of each category and all NaNs (`firstSeen_spec`), of the other tables a sublist with all the numbers (`numbered`), counts (`hist_counts`), sorting by place (`sort_numbers`), invariant of the mode loop (`modeLoop_spec`); a NaN and two numbers make incomparability intransitive (`not_sortable`) |
| C93 | `Model/FloatDocs`: comparison and quotient of document statistics on bit patterns (instance of `FloatOps` of `Model/DocStats`) | conversion and division are roundings (`key_ofInt`, `key_div`), rounding is monotone and fixes representable bounds (`rnd_mono`, `rnd_value`), different fractions with small denominators are further apart than rounding errors (`C93_fractions`); combined with C44 |
| C94 | `Model/DataDirectory`: a file system with a limit on open streams, the number of open ones as the state; the calls that look into the data directory | each function computed for a state with and without a free stream, induction over histories |
| C95 | `Model/DataDirectory`: archive constructors with and without a data root | round trip of the country (C08), then the constructor |
| C96 | `Model/TimeSeriesTraining` with the operations of `Model/FloatTimeSeries` and the texts of `Model/FloatText` | training theorem of C63 for the operations of doubles, reading errors (C67_read), error of sums (`sum_near`), of the division and of six decimals (C67_text) added up |
| C97 | `Model/FloatScalers`: `reloadMinMax` | subtraction of numbers at most a factor 2 apart is exact (`sterbenz`), otherwise the numbers are not larger than twice the span, so that the errors of the three operations are relative to the span (`reload_span`); then the errors of the quotients |
| C98 | `Model/GlobalFrequency`: the grained frequency estimator as an instance of the grain estimator, the global estimator | C37 reduces the grains to frequency estimators trained alone, C25 gives their frequencies; the loop of the global estimator takes the least. Exceptions: `C37_alone_throws` |
| C99 | `Model/RowTraining`: the estimator handle of the time series imputer (creation, `Fit`, `FitBuffer`, completion) over the byte reader of `Model/RowCodec`; `Spec/RowTraining`: a client with byte buffers only | every buffer reads as the texts of its row (C66), so the calls are those of the estimator; texts of finite numbers read as numbers (C67), so C63 gives the trained transformer; averages of finite numbers are not NaN and their texts come back, so C66 covers what follows |
| C100 | `Spec/Format`: the archive format as a function from byte sequences to a value and a rest, a refusal, or undefined behaviour, for every serializable type, transformer and pipeline; `Model/TimeSeriesLoad`: the archive constructor of the time series imputer with its checks in place; `Model/FloatMinMaxArchive`: the archived form of the min-max scaler over floats | each reading operation of the model follows the format, by composition over sequencing; formats are settled by the bytes they use; parsed parameters fit the archive, so C08 gives reloading; concrete byte sequences refute safety where it fails |
| C101 | `Model/GrainedWindows`, `Model/WindowPipeline` (the two-stage pipeline): estimator constructors and hooks, calculation numbers, archives of lag/lead and rolling transformers inside the grain transformer and of the rolling pipeline; `Spec/GrainedWindows`: `Lives`, a history of rows, flushes and reloads, and the answers per row | a per-series transformer that restarts at a flush and is archived without its rows makes the grain transformer restart (invariant `Begun`); C30, C31 and C82 for each series; induction over the history |
| C102 | `Model/Transformers` (constructors); `Spec/Constructors`: acceptance conditions and the list of type ids | case analysis per class; the sign test on bits is shown to be the IEEE comparison with zero |
| C103 | `Model/CArchives`: the archives that the C functions make around save and the archive constructor | C60 (calls equal direct calls) composed with C08/C15 (round trips) and C100 (formats) |
| C104 | `Spec/Sessions`: the calls on one handle and their replies picked out of any session, and a program with the object for itself (`alone`, `stepsAlone`); `gathering` for functions that return arrays (`Model/CGather`); `Spec/Clients`: the loop of a client that sees only replies; `Model/CPipelines`: pipelines and the label encoder behind the interface | induction over the session with C60; then the training of `Spec/Training`, C20 and C33 |
| C105 | `pipelineIn`, `labelEncoderIn` (`Model/CPipelines`), `maxAbsIn`, `catImputerIn`, `standardScalerIn` (`Model/CScalers`), `oneHotIn`, `numericalizeIn` (`Model/CEncoders`), `meanImputerIn`, `medianImputerIn` (`Model/CImputers`), `robustScalerIn` (`Model/CRobust`), `minMaxIn`, `integerMinMaxIn` (`Model/CMinMax`), `forwardFillIn`, `missingDummiesIn`, `imputationMarkerIn`, `hashOneHotIn` (`Model/CInference`), `toTextIn`, `fromTextIn` (`Model/CStrings`): the featurizer as the C interface of a process with a byte order sees it, saving and loading included; `Spec/Deployment`: the story of the two processes | C104 in the first process, the archive round trip (C01), C60 for save and load, C104 in the second process; C69, C72, C34, C20, C71, C75, C76, C68 and C97 for what the answers are |
| C106 | `Spec/Progress`: what a client that follows the loop has seen and what it has to do next | an invariant along the session (C104): what remains of the C++ training succeeds; C60 for the next call; existence of whole runs by the bound on the number of calls |
