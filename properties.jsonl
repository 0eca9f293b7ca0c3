{"id": "C01", "title": "Archive never reads or moves outside its buffer", "statement": "Starting from any archive opened for reading on any byte buffer, after any sequence of reads of fixed-size values, pointer queries, pointer advances, end-of-buffer queries and clones (whether each succeeds or throws), the read cursor stays within the buffer, the bytes are unchanged, a failed call leaves the cursor where it was, and a successful fixed-size read consumes exactly its size from inside the buffer.", "quantifier": "all buffers, all sequences of read-side API calls of any length", "why_tests_cant": "unbounded buffers and histories of calls; tests cover a few fixed sequences", "anchors": ["src/Archive.h: Archive::deserialize, get_buffer_ptr, update_buffer_ptr, AtEnd, clone"]}
{"id": "C02", "title": "Archive mode discipline", "statement": "An archive created for writing rejects every read-side call and an archive created for reading rejects every write-side call, with an error and without changing the archive; the mode never changes over its life.", "quantifier": "all archives, all sequences of calls", "why_tests_cant": "must hold after any history of calls, including failed ones", "anchors": ["src/Archive.h: Archive::Mode, serialize, commit, deserialize, get_buffer_ptr, update_buffer_ptr, AtEnd, clone"]}
{"id": "C03", "title": "Archive bytes are host-endianness independent", "statement": "For every scalar value, the bytes written by a little-endian host and by a big-endian host are identical, and each host reads back the value written by the other.", "quantifier": "all 1/2/4/8-byte scalar values, both endiannesses of writer and reader", "why_tests_cant": "a test host has one endianness; the claim is about all values and both hosts", "anchors": ["src/Archive.h: serialize_impl, deserialize_impl, swap_endian"]}
{"id": "C04", "title": "Value serialization round trip", "statement": "For every value of a supported type (booleans, 8 to 64 bit integers, floats and doubles bit for bit, strings, optionals, vectors, arrays, tuples, ordered maps, unordered maps and sets, in any nesting) whose collections have fewer than 2^32 elements, writing it to an archive and reading it back yields an equal value and consumes exactly the bytes written, whatever bytes follow.", "quantifier": "all values of all nested supported types, all suffixes", "why_tests_cant": "values and nestings are unbounded", "anchors": ["src/Traits.h: Traits<...>::serialize / deserialize for scalars, std::string, std::array, std::vector, std::map, std::unordered_map, std::unordered_set, std::tuple, nonstd::optional"]}
{"id": "C05", "title": "Truncated data is always rejected", "statement": "If a value's serialized bytes are cut at any point before the end, reading that value from the truncated archive throws; it never yields a value.", "quantifier": "all values of the supported types, all cut points (crash points of a writer)", "why_tests_cant": "all crash points of all values", "anchors": ["src/Traits.h: Traits<...>::deserialize", "src/Archive.h: deserialize"]}
{"id": "C06", "title": "Time points and durations survive serialization at the documented resolution", "statement": "Reading back a serialized system-clock time point yields the time point truncated to whole seconds (so serialization is lossless exactly when it is a whole second), reading back a duration yields it truncated to whole microseconds, and serializing a second time changes nothing more.", "quantifier": "all representable time points and durations", "why_tests_cant": "64-bit value space", "anchors": ["src/Traits.h: Traits<std::chrono::system_clock::time_point>, Traits<std::chrono::system_clock::duration>"]}
{"id": "C07", "title": "Loading a transformer rejects foreign versions", "statement": "For every versioned transformer, loading from a buffer whose first two 16-bit fields are not exactly (1, 0), or from a buffer shorter than the header, throws and never yields a transformer.", "quantifier": "all byte buffers, all versioned transformers", "why_tests_cant": "all 2^32-1 other headers and all truncations", "anchors": ["src/Featurizers/*.h: Transformer(Archive &) constructors", "src/Featurizers/Components/InferenceOnlyFeaturizerImpl.h", "src/Featurizers/Components/ImputerTransformer.h"]}
{"id": "C08", "title": "Saved transformers reload to equal transformers", "statement": "For every transformer that its constructor accepts (value imputer, one-hot, label encoder, numericalize, hash one-hot, min-max scaler, max-abs scaler, robust scaler, standard scaler, normalizer, lag/lead, rolling windows, forward/backward fill, short grain dropper, string conversions, tf-idf), loading what save wrote yields a transformer with equal parameters and consumes exactly the saved bytes.", "quantifier": "all constructor-valid parameter values of each transformer", "why_tests_cant": "unbounded maps, vectors and numeric ranges", "anchors": ["src/Featurizers/*.h: save and Transformer(Archive &)"]}
{"id": "C09", "title": "Estimator training life cycle", "statement": "Over any sequence of begin/fit/data-completed/complete calls and any behaviour of the concrete estimator, the state only moves Pending -> Training or Finished -> Completed, a call made in a state that does not permit it throws and changes nothing, fit with a null or empty buffer throws and changes nothing, and Completed is final.", "quantifier": "all call sequences, all concrete estimator behaviours", "why_tests_cant": "unbounded histories and arbitrary subclasses", "anchors": ["src/Featurizer.h: FitEstimator::begin_training, fit, on_data_completed, complete_training, get_state"]}
{"id": "C10", "title": "An estimator yields at most one transformer, and only after training completed", "statement": "Over any sequence of calls, create_transformer succeeds at most once, only when the state is Completed; every other attempt throws.", "quantifier": "all call sequences", "why_tests_cant": "unbounded histories", "anchors": ["src/Featurizer.h: TransformerEstimator::create_transformer, has_created_transformer"]}
{"id": "C11", "title": "Annotations are append-only and column-local", "statement": "Adding an annotation with a valid column never removes, reorders or changes existing annotations and never affects another column or name; a lookup returns the earliest added annotation of the requested kind under that column and name, or nothing; invalid columns, null annotations and empty names are rejected without change.", "quantifier": "all annotation tables, all sequences of additions", "why_tests_cant": "unbounded histories", "anchors": ["src/Featurizer.h: Estimator::add_annotation, get_annotation_impl"]}
{"id": "C12", "title": "Training-only estimators: batch-split independence, cap and no retraining", "statement": "However the training data is split into non-empty batches, a training-only estimator's published annotation depends only on the concatenated data; with a cap N it depends only on the first N items and reports completion exactly when the cap is reached; if the annotation already exists it consumes nothing and adds no second annotation.", "quantifier": "all data, all batch splits, all caps, all estimator policies", "why_tests_cant": "all partitions of all inputs", "anchors": ["src/Featurizers/Components/TrainingOnlyEstimatorImpl.h: begin_training_impl, fit_impl, complete_training_impl"]}
{"id": "C13", "title": "Pipelines train their stages in order, each on complete data", "statement": "With the standard training loop (feed all batches, restart when told to reset, repeat until finished, then complete), a pipeline finishes, every stage's training begins only after the previous stage completed, and each data-consuming stage is trained on exactly the whole data set as transformed by the completed stages before it.", "quantifier": "all data sets, all batch splits, all numbers of stages", "why_tests_cant": "unbounded pipelines and data", "anchors": ["src/Featurizers/Components/Details/PipelineExecutionEstimatorImpl_details.h: begin_training, fit, on_data_completed, complete_training, complete_chained_estimator"]}
{"id": "C14", "title": "Pipeline execution is composition of its stages", "statement": "For any stateful stage transformers and any input sequence followed by flush, the outputs of the pipeline equal those obtained by running the whole sequence and flush through the first stage, then its outputs and flush through the next, and so on; no output is lost, duplicated or reordered, including those produced on flush.", "quantifier": "all stage transformers, all chain lengths, all input sequences", "why_tests_cant": "arbitrary stage behaviours and unbounded sequences", "anchors": ["src/Featurizers/Components/Details/PipelineExecutionEstimatorImpl_details.h: TransformerChainElement::execute, flush"]}
{"id": "C15", "title": "Saved pipelines reload stage by stage", "statement": "A pipeline saved to an archive and reloaded has every stage equal to the original stage in the original position, provided each stage round-trips, and reading consumes exactly the saved bytes.", "quantifier": "all pipelines of any length", "why_tests_cant": "unbounded pipelines", "anchors": ["src/Featurizers/Components/Details/PipelineExecutionEstimatorImpl_details.h: TransformerChainElement::save, TransformerChainElement(Archive &)"]}
{"id": "C16", "title": "Column filter preserves the row", "statement": "A filtered transformer's output row is the unchanged input row followed by what the wrapped transformer produces for exactly the selected columns in the selected order, one output row per wrapped output; a wrapped transformer that emits on flush makes flush throw.", "quantifier": "all rows, all column selections, all wrapped transformers", "why_tests_cant": "arbitrary wrapped behaviours and arities", "anchors": ["src/Featurizers/Components/FilterFeaturizerImpl.h: FilterTransformer::execute_impl, flush_impl", "src/Featurizers/Components/Details/FilterTraits.h"]}
{"id": "C17", "title": "Column filter trains the wrapped estimator like direct training", "statement": "Training through a column filter gives the wrapped estimator the same passes over the projected data, hence the same result, as training it directly.", "quantifier": "all estimators, all data sets", "why_tests_cant": "arbitrary wrapped estimators", "anchors": ["src/Featurizers/Components/FilterFeaturizerImpl.h: FilterEstimatorImplBase::begin_training_impl, fit_impl, complete_training_impl"]}
{"id": "C18", "title": "Histogram counts", "statement": "After training on any data, each distinct value is present exactly once with its number of occurrences, the counts add up to the number of items, and the result does not depend on the order of the data.", "quantifier": "all data sequences", "why_tests_cant": "unbounded data, all permutations", "anchors": ["src/Featurizers/Components/HistogramEstimator.h"]}
{"id": "C19", "title": "Index maps are order-preserving bijections", "statement": "Without pre-existing labels, the values seen in training are mapped one-to-one onto 0..n-1 in increasing value order, independently of the data order; pre-existing labels keep their index and new labels get distinct consecutive indexes after them.", "quantifier": "all data, all pre-existing label maps numbered 0..k-1", "why_tests_cant": "unbounded label sets", "anchors": ["src/Featurizers/Components/IndexMapEstimator.h: CreateIndexMap, IndexMapEstimator"]}
{"id": "C20", "title": "Label, one-hot and numeric encoders agree with training", "statement": "After training, every training value is encoded as its own index (offset by one when missing values are allowed), two distinct training values never share a code, every code is within the announced size, an unseen value is encoded as the reserved code 0 (missing allowed), rejected (not allowed) or NaN (numericalize).", "quantifier": "all training sets, all inputs", "why_tests_cant": "unbounded label sets and inputs", "anchors": ["src/Featurizers/LabelEncoderFeaturizer.h", "src/Featurizers/OneHotEncoderFeaturizer.h", "src/Featurizers/NumericalizeFeaturizer.h"]}
{"id": "C21", "title": "Mode is the most frequent value, earliest on ties", "statement": "The published mode occurs at least as often as every other eligible value and, among the most frequent ones, is the one seen first; training with no eligible value throws.", "quantifier": "all data sequences", "why_tests_cant": "unbounded data", "anchors": ["src/Featurizers/Components/ModeEstimator.h"]}
{"id": "C22", "title": "Median is the median", "statement": "After any sequence of non-null values the published median is the middle element of the sorted values (odd count, or lower middle when not interpolating), or the mean of the two middle elements; it does not depend on the order; nulls are ignored and no values throws.", "quantifier": "all data sequences over a totally ordered type", "why_tests_cant": "unbounded data, all permutations", "anchors": ["src/Featurizers/Components/MedianEstimator.h"]}
{"id": "C23", "title": "Statistical metrics are exact over integers or rejected", "statement": "Minimum, maximum and count equal those of the non-null data; the integer sum is the exact sum whenever training succeeds, i.e. an overflowing sum is reported, never silently wrapped; the average is sum divided by count.", "quantifier": "all data sequences", "why_tests_cant": "unbounded data and the whole 64-bit range", "anchors": ["src/Featurizers/Components/StatisticalMetricsEstimator.h"]}
{"id": "C24", "title": "Min/max estimation", "statement": "The published minimum and maximum are attained by the data and bound all of it; no data throws.", "quantifier": "all non-empty data sequences", "why_tests_cant": "unbounded data", "anchors": ["src/Featurizers/Components/MinMaxEstimator.h"]}
{"id": "C25", "title": "Time frequency is the smallest gap", "statement": "For a strictly increasing sequence of at least two time points the published frequency is the smallest difference of consecutive time points; non-increasing data and fewer than two points throw; the global frequency is the smallest over the grains.", "quantifier": "all time sequences and grains", "why_tests_cant": "unbounded data", "anchors": ["src/Featurizers/Components/FrequencyEstimator.h", "src/Featurizers/Components/GlobalMinimumFrequencyEstimator.h", "src/Featurizers/Components/TimeSeriesFrequencyEstimator.h"]}
{"id": "C26", "title": "Min-max scaling maps training data onto [0,1] monotonically", "statement": "For a scaler trained on data with minimum lo and maximum hi, every training value is mapped into [0,1], lo to 0 and hi to 1 when lo < hi, and the mapping is monotone; constant data maps to 0.", "quantifier": "all data, all integer widths and exact real inputs", "why_tests_cant": "whole numeric ranges; overflow corner cases", "anchors": ["src/Featurizers/MinMaxScalerFeaturizer.h", "src/Featurizers/Components/MinMaxEstimator.h"]}
{"id": "C27", "title": "Max-abs, robust and standard scaling", "statement": "Max-abs scaling maps training data into [-1,1] preserving sign; robust scaling subtracts the median (if centering) and divides by the scaled range, and never divides by zero; standard scaling of the training data has mean zero when centering and never divides by zero.", "quantifier": "all data over exact arithmetic", "why_tests_cant": "unbounded data", "anchors": ["src/Featurizers/MaxAbsScalerFeaturizer.h", "src/Featurizers/RobustScalerFeaturizer.h", "src/Featurizers/StandardScaleWrapperFeaturizer.h", "src/Featurizers/Components/MaxAbsValueEstimator.h"]}
{"id": "C28", "title": "Row normalization by trained norms", "statement": "After training on n rows, transforming the same rows in the same order divides each row by its own norm (L1: sum of absolute values, max: largest absolute value), so the resulting norm is 1 for a non-zero row; nulls stay null; transforming more than n rows throws.", "quantifier": "all row sets", "why_tests_cant": "unbounded rows; integer corner cases", "anchors": ["src/Featurizers/Base/NormalizeFeaturizer.h", "src/Featurizers/Components/NormUpdaters.h", "src/Featurizers/Components/VectorNormsEstimator.h"]}
{"id": "C29", "title": "Circular buffer keeps the newest items in order", "statement": "After pushing any sequence into a circular buffer of capacity c, iterating yields exactly the last min(n,c) items in insertion order, and iterating a sub-range yields the corresponding slice.", "quantifier": "all capacities, all push sequences, all valid sub-ranges", "why_tests_cant": "wrap-around positions for unbounded histories", "anchors": ["src/Featurizers/Components/WindowFeaturizerBase.h: CircularBuffer, CircularIterator"]}
{"id": "C30", "title": "Lag/lead windows", "statement": "For any series followed by flush, exactly one output per input is produced, in input order, and the cell for offset d and column j of horizon H of the i-th output is the input at i+d-(H-1-j), or null when outside the series.", "quantifier": "all series, offsets and horizons", "why_tests_cant": "unbounded series; boundary rows at both ends", "anchors": ["src/Featurizers/LagLeadOperatorFeaturizer.h"]}
{"id": "C31", "title": "Rolling window aggregates", "statement": "For any series the n-th output holds, for each horizon step h from H down to 1, the aggregate (mean, min, max) over the at most W inputs that end h steps before the newest one, or null when fewer than the minimum window are available.", "quantifier": "all series, horizons, window sizes, minimum sizes", "why_tests_cant": "unbounded series, wrap-around", "anchors": ["src/Featurizers/Base/RollingWindowTransformerBase.h", "src/Featurizers/SimpleRollingWindowFeaturizer.h", "src/Featurizers/AnalyticalRollingWindowFeaturizer.h", "src/Featurizers/Calculators/"]}
{"id": "C32", "title": "Forward fill", "statement": "Every non-null input is passed through and every null input yields the most recent earlier non-null input (or the default value); a null before any value with no default throws; one output per input.", "quantifier": "all series", "why_tests_cant": "unbounded histories", "anchors": ["src/Featurizers/ForwardFillImputerFeaturizer.h"]}
{"id": "C33", "title": "Backward fill", "statement": "For any series followed by flush, exactly one output per input is produced in order: each null is replaced by the next later non-null input, trailing nulls by the default value; trailing nulls without default make flush throw.", "quantifier": "all series", "why_tests_cant": "unbounded runs of nulls", "anchors": ["src/Featurizers/BackwardFillImputerFeaturizer.h"]}
{"id": "C34", "title": "Value imputers replace exactly the nulls", "statement": "A value imputer passes every non-null input through unchanged and replaces every null by the trained value, so outputs are never null; missing-dummies and imputation markers are 1/true exactly for nulls.", "quantifier": "all inputs", "why_tests_cant": "all inputs", "anchors": ["src/Featurizers/Components/ImputerTransformer.h", "src/Featurizers/MissingDummiesFeaturizer.h", "src/Featurizers/ImputationMarkerFeaturizer.h", "src/Featurizers/CatImputerFeaturizer.h"]}
{"id": "C35", "title": "Time series imputation fills the gaps on the frequency grid", "statement": "For any chronological series and frequency f, the emitted rows are exactly the original rows in order, with, between consecutive originals a and b, one generated row at a+f, a+2f, ... for every grid time strictly before b; a generated row is flagged and an original row is not.", "quantifier": "all series and frequencies", "why_tests_cant": "unbounded series and gap lengths", "anchors": ["src/Featurizers/Components/TimeSeriesImputerTransformer.h: execute_impl, generate_rows"]}
{"id": "C36", "title": "Time series imputation values", "statement": "Forward fill gives every null cell the latest earlier non-null value of that column; back fill gives it the next later non-null value; non-null cells of original rows are never changed; no row is lost or reordered, also through flush.", "quantifier": "all series", "why_tests_cant": "unbounded series and pending buffers", "anchors": ["src/Featurizers/Components/TimeSeriesImputerTransformer.h: bfill, ffill_or_median, flush_impl"]}
{"id": "C37", "title": "Grain isolation", "statement": "For any interleaving of the rows of different grains, the outputs produced for one grain are exactly those its own rows would produce alone in order; training likewise gives each grain the estimator trained on its own rows only.", "quantifier": "all interleavings of all grain series, all per-grain transformers", "why_tests_cant": "all interleavings", "anchors": ["src/Featurizers/Components/GrainFeaturizerImpl.h: GrainTransformer::execute_impl, flush_impl, GrainEstimatorImplBase::fit_impl"]}
{"id": "C38", "title": "Grain transformers survive save and load", "statement": "Saving a trained grain transformer, loading it, and saving again preserves the transformers of every grain.", "quantifier": "all grain maps", "why_tests_cant": "unbounded maps and save/load histories", "anchors": ["src/Featurizers/Components/GrainFeaturizerImpl.h: GrainTransformer save and load"]}
{"id": "C39", "title": "Short grain dropper", "statement": "After training, a grain's rows are kept if and only if the grain had at least the configured number of training rows; the answer does not depend on row order.", "quantifier": "all training sequences and thresholds", "why_tests_cant": "unbounded data, all orders", "anchors": ["src/Featurizers/ShortGrainDropperFeaturizer.h", "src/Featurizers/ShortGrainDropperFeaturizer.cpp"]}
{"id": "C40", "title": "Forecasting pivot", "statement": "The pivot emits one row per column of the input matrices in which no matrix has a null, in column order, holding the cells of that column in matrix and row order; empty input or differing column counts throw.", "quantifier": "all lists of matrices", "why_tests_cant": "unbounded dimensions", "anchors": ["src/Featurizers/ForecastingPivotFeaturizer.h"]}
{"id": "C41", "title": "Tokenization yields the maximal non-separator runs", "statement": "Splitting any string on any separator predicate yields exactly the maximal runs of non-separator characters, in order; none is empty and none contains a separator; trimming removes exactly the leading/trailing separators.", "quantifier": "all strings, all predicates", "why_tests_cant": "unbounded strings", "anchors": ["src/Strings.h: Details::Parse, TrimLeft, TrimRight, Trim"]}
{"id": "C42", "title": "Word n-grams", "statement": "Word n-gram parsing yields exactly all runs of k consecutive words for every k in the requested range; out of range requests throw.", "quantifier": "all texts and ranges", "why_tests_cant": "unbounded texts", "anchors": ["src/Strings.h: ParseNgramWord"]}
{"id": "C43", "title": "Character n-grams", "statement": "Character n-gram parsing yields exactly all substrings of every length in the requested range.", "quantifier": "all texts and ranges", "why_tests_cant": "unbounded texts", "anchors": ["src/Strings.h: ParseNgramChar, ParseNgramCharwb, Details::ParseNgramCharHelper"]}
{"id": "C44", "title": "Document frequencies and vocabulary pruning", "statement": "A term's document frequency is the number of documents containing it at least once; the pruned vocabulary keeps exactly the terms whose frequency is within the bounds and, with a top-k limit, exactly k of them such that no dropped term is more frequent than a kept one; ties are broken by the smallest term, so the result is deterministic.", "quantifier": "all document collections", "why_tests_cant": "unbounded collections", "anchors": ["src/Featurizers/Components/DocumentStatisticsEstimator.cpp: fit, PruneTermFreqMap"]}
{"id": "C45", "title": "Count vectorizer counts", "statement": "The sparse vector for a document has, for each vocabulary term occurring in it, the number of its occurrences (or 1 in binary mode) at the term's index, and nothing else, in increasing index order.", "quantifier": "all documents and vocabularies", "why_tests_cant": "unbounded documents", "anchors": ["src/Featurizers/CountVectorizerFeaturizer.cpp", "src/Featurizers/TfidfVectorizerFeaturizer.cpp"]}
{"id": "C46", "title": "Sparse vectors are well-formed", "statement": "Every sparse vector that can be constructed has a positive size, at least one entry, strictly increasing indexes, and all indexes within its size.", "quantifier": "all constructor arguments", "why_tests_cant": "all argument combinations", "anchors": ["src/Featurizers/Structs.h: SparseVectorEncoding, SingleValueSparseVectorEncoding"]}
{"id": "C47", "title": "Hash encoding is total, deterministic and in range", "statement": "For every byte string, seed and positive number of columns, hash encoding yields exactly one column index below the number of columns, depending only on the input and seed; zero columns are rejected.", "quantifier": "all inputs, seeds, column counts", "why_tests_cant": "unbounded inputs", "anchors": ["src/Featurizers/HashOneHotVectorizerFeaturizer.h", "src/3rdParty/MurmurHash3.cpp"]}
{"id": "C48", "title": "Integer and boolean text conversion round trip", "statement": "Converting any integer or boolean to text and back yields the same value; text that denotes an integer outside the target type's range is rejected, not wrapped.", "quantifier": "all values of all integer widths, all decimal texts", "why_tests_cant": "whole ranges", "anchors": ["src/Traits.h: Traits<intN>::ToString, FromString", "src/Featurizers/StringFeaturizer.h", "src/Featurizers/FromStringFeaturizer.h"]}
{"id": "C49", "title": "Calendar decomposition of time points", "statement": "For every instant, the date and time fields are the proleptic Gregorian UTC ones and the derived fields are consistent: quarter 1-4 and half 1-2 match the month, day of quarter lies in 1-92 and counts from the quarter's first day, week of month is 0-4, am/pm matches the hour.", "quantifier": "all instants", "why_tests_cant": "unbounded range of instants; leap years and centuries", "anchors": ["src/Featurizers/DateTimeFeaturizer.cpp: TimePoint::TimePoint"]}
{"id": "C50", "title": "Holiday lookup uses the calendar day", "statement": "For every instant, the holiday name reported is the one recorded for the UTC midnight of the instant's own calendar day, and empty if none is.", "quantifier": "all instants and holiday tables", "why_tests_cant": "unbounded range of instants", "anchors": ["src/Featurizers/DateTimeFeaturizer.cpp: DateTimeTransformer::execute_impl"]}
{"id": "C51", "title": "Handle table safety", "statement": "Over any sequence (hence any mutex-serialized interleaving) of add, get and remove, every live handle is non-zero, unique, and resolves to the pointer it was given for until it is removed; a removed or never issued handle is rejected; a null pointer is never stored.", "quantifier": "all operation histories, all random index sources", "why_tests_cant": "all histories and schedules", "anchors": ["src/SharedLibrary/PointerTable.h"]}
{"id": "C52", "title": "C API never lets an internal error escape and reports it once", "statement": "Every estimator/transformer C call that fails returns false and hands out a fresh error handle (or none if the error out-parameter is null), every call that succeeds returns true with no error handle, and failed calls do not disturb other live handles.", "quantifier": "all call histories on valid and invalid handles", "why_tests_cant": "all histories", "anchors": ["src/SharedLibrary/GeneratedCode/SharedLibrary_CatImputerFeaturizer.cpp", "src/SharedLibrary/GeneratedCode/SharedLibrary_Common.cpp"]}
{"id": "C53", "title": "Archive position and commit are exact", "statement": "After any history of calls, a reading archive reports being at its end exactly when no byte is unread, its buffer pointer is the next unread byte, a read or advance succeeds exactly when enough bytes are unread, and a clone contains exactly the unread bytes; a writing archive's commit returns exactly the bytes written since the last commit.", "quantifier": "all archives, all histories of calls with bounded advances", "why_tests_cant": "must hold after any history of calls", "anchors": ["src/Archive.h: AtEnd, get_buffer_ptr, update_buffer_ptr, clone, commit"]}
{"id": "C54", "title": "Vectorizers see the same terms in training and at execution", "statement": "For every document and every analyzer, n-gram range and regular expression, the terms counted for it during training are exactly the terms looked up for it at execution, with and without lower-casing; hence, without pruning, executing a training document that has a term never throws and finds every one of its terms.", "quantifier": "all documents, all analyzer configurations", "why_tests_cant": "all documents and configurations; the two code paths lower-case at different points", "anchors": ["src/Featurizers/Components/DocumentStatisticsEstimator.cpp: DocumentDecorator, DocumentParseFuncGenerator", "src/Featurizers/TfidfVectorizerFeaturizer.cpp: execute_impl"]}
{"id": "C55", "title": "Tf-idf vectorizer weights and normalisation", "statement": "For every document the tf-idf vector has, at the index of each vocabulary term occurring in it and nowhere else, the product of its term-frequency factor (count, 1, or 1+log count) and its inverse-document-frequency factor, divided by a norm common to all entries: values are positive and sum to 1 under L1, their squares sum to 1 under L2, and the norm is 1 when normalisation is off; the document frequencies are those of the training data.", "quantifier": "all documents, training sets and configurations", "why_tests_cant": "unbounded documents and training sets", "anchors": ["src/Featurizers/TfidfVectorizerFeaturizer.cpp: execute_impl", "src/Featurizers/TfidfVectorizerFeaturizer.h: create_transformer_impl"]}
{"id": "C56", "title": "Conversion to strings and back keeps nullable values", "statement": "For every nullable value, converting it with the string featurizer and converting the result back with the from-string featurizer (same setting for null values) yields the same value, null staying null and non-null staying non-null.", "quantifier": "all values of all nullable scalar types, both settings", "why_tests_cant": "unbounded values; reserved spellings of null", "anchors": ["src/Featurizers/StringFeaturizer.h", "src/Featurizers/FromStringFeaturizer.h", "src/Traits.h: Traits<optional<T>>::ToString, FromString"]}
{"id": "C57", "title": "Numbering of days in decomposed instants", "statement": "As the header documents, for every instant the day of the week is 0 exactly on Mondays (6 on Sundays) and the day of the year lies in 1-366.", "quantifier": "all instants", "why_tests_cant": "unbounded range of instants", "anchors": ["src/Featurizers/DateTimeFeaturizer.h: TimePoint", "src/Featurizers/DateTimeFeaturizer.cpp: TimePoint::TimePoint"]}
{"id": "C58", "title": "ISO week and year", "statement": "For every instant the reported ISO year and week are those of ISO 8601: weeks run from Monday to Sunday, belong to the year of their Thursday and are numbered from the week of the year's first Thursday.", "quantifier": "all instants", "why_tests_cant": "unbounded range of instants; year boundaries interact with weekdays and leap years", "anchors": ["src/Featurizers/DateTimeFeaturizer.cpp: TimePoint::TimePoint", "src/3rdParty/iso_week.h: year_weeknum_weekday::from_days", "src/3rdParty/date.h: to_days, from_days"]}
{"id": "C59", "title": "Country names", "statement": "For every data directory, every country reported as supported is accepted; the estimator accepts a country exactly when some file answers to it (file name, stem, lower-case stem, lower-case stem without white space), the transformer is then built with the holidays of the first such file, and both reject all other names.", "quantifier": "all directories and names", "why_tests_cant": "unbounded names and directories", "anchors": ["src/Featurizers/DateTimeFeaturizer.cpp: DoesCountryMatch, IsValidCountry, GetSupportedCountries, DateTimeTransformer::DateTimeTransformer"]}
{"id": "C60", "title": "C functions do what direct calls of the C++ methods do", "statement": "After every history of C calls, a call does to the object behind its handle exactly what the direct C++ call (constructor and begin_training, fit, on_data_completed, complete_training, create_transformer, execute, flush, save, load, delete) does, reports its result or exception, and leaves what every other handle stands for unchanged; so after any history every handle stands for the object that the direct calls in the same order would have produced.", "quantifier": "all featurizers, all histories of C calls, all allocator and random number choices", "why_tests_cant": "all histories", "anchors": ["src/SharedLibrary/GeneratedCode/SharedLibrary_CatImputerFeaturizer.cpp", "src/SharedLibrary/PointerTable.h"]}
{"id": "C61", "title": "C interface: handles own their objects and nothing leaks", "statement": "After every history of C calls each live handle owns one allocated object that no other handle owns, and every allocated estimator, transformer and error message is owned by a live handle, so that nothing remains allocated once all handles have been destroyed.", "quantifier": "all histories of C calls", "why_tests_cant": "all histories; error paths", "anchors": ["src/SharedLibrary/GeneratedCode/SharedLibrary_CatImputerFeaturizer.cpp: CreateEstimator, DestroyEstimator", "src/SharedLibrary/GeneratedCode/SharedLibrary_Common.cpp: CreateErrorInfo, DestroyErrorInfo"]}
{"id": "C62", "title": "Destroying one handle from several threads", "statement": "When any number of threads destroy the same live handle concurrently, under every interleaving with each other and with threads that create objects, exactly one call succeeds and deletes the object, once; the others report failure; and other handles are unaffected.", "quantifier": "all numbers of threads, all interleavings", "why_tests_cant": "all schedules", "anchors": ["src/SharedLibrary/GeneratedCode/SharedLibrary_CatImputerFeaturizer.cpp: DestroyEstimator, DestroyTransformer", "src/SharedLibrary/PointerTable.h: Get, Remove, Add"]}
{"id": "C63", "title": "Training the time series imputer", "statement": "Training on any batches of rows (keys interleaved) yields a transformer whose frequency is the smallest distance of consecutive rows of one key and whose replacement values are, per key and floating-point column, the arithmetic mean of the non-null training values (the library calls it median); training fails with an exception exactly if a key's times do not strictly increase, no key has two rows, no column is given, or a floating-point column of a key has no value (for every strategy), or a text is not a number; with the median strategy the trained transformer then replaces exactly the null cells of those columns by these means.", "quantifier": "all batches of rows, keys, columns, strategies and following series", "why_tests_cant": "unbounded data and interleavings over two estimators and a pipeline", "anchors": ["src/Featurizers/Components/TimeSeriesMedianEstimator.h: fit_impl, complete_training_impl", "src/Featurizers/Components/TimeSeriesImputerTransformer.h: TimeSeriesImputerEstimator", "src/Featurizers/TimeSeriesImputerFeaturizer.h: TimeSeriesImputerEstimator"]}
{"id": "C64", "title": "Tokens of a document are what the analyzer promises", "statement": "For every document and analyzer of the text featurizers: single words are the maximal runs of characters between white space (punctuation stays); with a regular expression, what it finds in the unchanged document; for longer word n-grams (in a document whose only white space is the blank) every run of n neighbouring words, punctuation separating words as well, joined by single blanks, for each n of the range; for characters, all substrings of the cleaned document (punctuation replaced by blanks, repeated white space removed) of the smallest length; for characters within words, the same for every word with a blank at both ends. A range that is invalid or longer than the document throws, and a document that throws leaves the statistics gathered so far unchanged.", "quantifier": "every document, analyzer, n-gram range and state of training", "why_tests_cant": "The set of documents is infinite, and the interplay of punctuation, repeated blanks, padding and n-gram boundaries can only be sampled by tests.", "anchors": ["src/Strings.h: StringPadding, Parse, ReplaceAndDeDuplicate, ToLower, ParseNgramWord, ParseNgramChar, ParseNgramCharwb", "src/Featurizers/Components/DocumentStatisticsEstimator.h: fit_impl", "src/Featurizers/Components/DocumentStatisticsEstimator.cpp: DocumentParseFuncGenerator, DocumentDecorator"]}
{"id": "C65", "title": "Date-time texts are read as the instant they name", "statement": "For every existing date and time of day written in ISO 8601, in the extended or the basic format, with any number of decimals of a second the clock has, 'T' or blanks between date and time, and any zone (Z, or hours and minutes to the east or west with or without colon), reading the text gives exactly that instant, if the clock can represent it; a text naming a date or time of day that does not exist is an invalid argument; the text written for a time point is the extended format in universal time of the second it lies in, so that reading it back gives the beginning of that second; a date-time argument of the C interface is read in the same way.", "quantifier": "every date, time of day, number of decimals, separator, zone and format; every time point; every text", "why_tests_cant": "The texts and instants are unbounded in number; leap years, zones and the template built from characters found anywhere in the text interact.", "anchors": ["src/Traits.h: CommonTimePointTraits::ToString, FromString", "src/3rdParty/date.h: from_stream, to_stream, read_signed, read_unsigned, read_long_double", "src/SharedLibrary/GeneratedCode/SharedLibrary_Common.cpp: CreateDateTime"]}
{"id": "C66", "title": "Rows of the time series imputer's C interface", "statement": "For every declared list of key and data column types, every row handed to the C interface of the time series imputer as bytes is read, on any host and at any address, as exactly the typed values it was written from (null and NaN as missing), a truncated row is refused with an exception, and for every sequence of rows each call answers what the imputer does with these rows: the same exception, or the bytes of exactly the rows it puts out, each with a flag telling whether it was added; flushing gives the rows the imputer still holds; saving a transformer and loading it restores column types and transformer; releasing a result releases every buffer of it once.", "quantifier": "every list of column types, row, host byte order, address and sequence of calls", "why_tests_cant": "Rows, column types and histories are unbounded; the conversion to text and back loses information only for some types and values.", "anchors": ["src/SharedLibrary/SharedLibrary_TimeSeriesImputerFeaturizer.cpp: Serializer, TransformerMemory, TimeSeriesImputerFeaturizer_BinaryArchive_Transform, TimeSeriesImputerFeaturizer_BinaryArchive_Flush, TimeSeriesImputerFeaturizer_BinaryArchive_DestroyTransformedData"]}
{"id": "C67", "title": "Floating point numbers and their texts", "statement": "Every finite float or double is written as the nearest decimal number with six decimals and comes back from its text; a text that denotes a number (white space, sign, digits, point, exponent, anything after) is read as the nearest floating point number and refused with out_of_range exactly if it is too large or too small to be represented; any other text is refused with invalid_argument; NaN and the infinities come back; order is preserved.", "quantifier": "every float and double, every text", "why_tests_cant": "2^64 numbers and unboundedly long texts; correct rounding has rare worst cases that no sample finds.", "anchors": ["src/Traits.h: Traits<std::float_t>, Traits<std::double_t>: ToString, FromString", "src/Featurizers/StringFeaturizer.h: execute_impl", "src/Featurizers/FromStringFeaturizer.h: execute_impl"]}
{"id": "C68", "title": "Min-max scaling in floating point", "statement": "For every column of float, double or integer values that the min-max scaler is trained on, with the rounding of the machine's arithmetic: scaling a number between the column's values gives a finite number from 0 to 1, larger inputs never give smaller results, the least value gives exactly 0 and the greatest exactly 1 (0 if all are equal), the result is within a small multiple of the rounding unit of exact scaling, NaN gives NaN, a column without numbers is refused, and a saved and loaded scaler scales as before.", "quantifier": "every column, batching, number and input type", "why_tests_cant": "Rounding, overflow, subnormal numbers and signed zeros depend on all bits of all values of the column; the failures lie at rare combinations.", "anchors": ["src/Featurizers/MinMaxScalerFeaturizer.h: MinMaxScalerTransformer, execute_impl, execute_implex, save", "src/Featurizers/Components/MinMaxEstimator.h: MinMaxTrainingOnlyPolicy"]}
{"id": "C69", "title": "Max-abs scaling in floating point", "statement": "For every column of float, double or integer values that the max-abs scaler is trained on, with the rounding of the machine's arithmetic: scaling a number whose magnitude does not exceed that of the column's values gives a finite number from -1 to 1 that is the floating point number nearest to the exact quotient, with the sign of the input; larger inputs never give smaller results; the value of greatest magnitude gives exactly 1 or -1; a column of zeros is left as it is, NaN gives NaN, and a column with an infinity is refused with invalid_argument.", "quantifier": "every column, batching, number and input type", "why_tests_cant": "Rounding, overflow, subnormal numbers, signed zeros and the smallest integer depend on all bits of all values of the column.", "anchors": ["src/Featurizers/MaxAbsScalerFeaturizer.h: MaxAbsScalarTransformer, execute_impl", "src/Featurizers/Components/MaxAbsValueEstimator.h: MaxAbsValueTrainingOnlyPolicy"]}
{"id": "C70", "title": "Row normalization in floating point", "statement": "For every set of rows of float, double or integer elements without infinities that a normalizer (L1, L2, max) is trained on, each with at least one number, with the rounding of the machine's arithmetic: training succeeds; the rows given again in the same order come out with nulls as NaN in their places and every number as a finite number from -1 to 1 of the same sign, in the same order as the inputs and within rounding of the exact quotient by the exact norm; a row of zeros gives NaNs; the greatest magnitude under the max norm gives exactly 1 or -1; one row more than trained on throws runtime_error.", "quantifier": "every list of rows, batching, element type, norm and number", "why_tests_cant": "Rounding errors accumulate over rows of any length, and whether a row is accepted at all depends on the magnitudes and the order of its elements.", "anchors": ["src/Featurizers/NormalizeFeaturizer.h", "src/Featurizers/Base/NormalizeFeaturizer.h: NormalizeTransformer, execute_impl", "src/Featurizers/Components/NormUpdaters.h: L1NormUpdater, L2NormUpdater, MaxNormUpdater", "src/Featurizers/Components/VectorNormsEstimator.h: VectorNormsTrainingOnlyPolicy"]}
{"id": "C71", "title": "Mean, minimum and maximum imputation in floating point", "statement": "For every column of float, double or integer values without infinities, nulls included, that has at least one value, with the rounding of the machine's arithmetic: training the mean imputer succeeds; missing values become one finite double between the least and the greatest value of the column and within rounding of its exact mean, and other values come out as they are, as doubles; the minimum and maximum imputers use exactly the least and the greatest value; a column without a value or with an infinity is refused with runtime_error.", "quantifier": "every column, batching, cap and input type", "why_tests_cant": "Rounding errors accumulate over columns of any length; whether the computed mean lies between the extremes depends on the number of rows and all bits of all values.", "anchors": ["src/Featurizers/MeanImputerFeaturizer.h: MeanImputerEstimatorImpl, create_transformer_impl", "src/Featurizers/MinMaxImputerFeaturizer.h: MinMaxImputerEstimatorImpl, create_transformer_impl", "src/Featurizers/Components/StatisticalMetricsEstimator.h: StandardStatsUpdater, update, commit", "src/Featurizers/Components/ImputerTransformer.h: execute_impl"]}
{"id": "C72", "title": "Standard scaling in floating point", "statement": "For every column of float, double or integer values without infinities that has at least one value, with the rounding of the machine's arithmetic: training the standard scaler succeeds; it then computes (x - m)/s up to the rounding of two operations, with m within rounding of the exact mean and between the column's values (0 without centering), s positive and within rounding of the exact standard deviation (1 without scaling, and 1 if all values are equal); the input m gives exactly 0, larger inputs never give smaller results, NaN gives NaN; a column without a value or with an infinity is refused with runtime_error.", "quantifier": "every column, batching, cap, option and input type", "why_tests_cant": "Rounding errors of three sums, a square root and quotients accumulate over columns of any length; whether a column is accepted at all depends on how the last bits of the computed mean compare with the values.", "anchors": ["src/Featurizers/StandardScaleWrapperFeaturizer.h: StandardScaleWrapperTransformer, create_transformer_impl, execute_impl", "src/Featurizers/Components/StandardDeviationEstimator.h: StandardDeviationTrainingOnlyPolicy", "src/Featurizers/Components/NormUpdaters.h: L2NormUpdater", "src/Featurizers/Components/StatisticalMetricsEstimator.h: StandardStatsUpdater"]}
{"id": "C73", "title": "Arrays passed through the C interface", "statement": "For every memory: when a caller passes to Fit, FitBuffer or Transform of the C interface arrays that hold given values, nullable values, strings, nullable strings, keys with values, matrices, rows of numbers or lists of matrices, with their lengths, then exactly these values, in order, reach the estimator or transformer, and nothing outside the caller's arrays is read. A null array or a length of zero is refused with invalid_argument.", "quantifier": "every memory, every position of the arrays in it, every number and length of rows, strings and matrices", "why_tests_cant": "Reads out of bounds usually go unnoticed; a test uses a few arrays of convenient shapes, while the claim is about all shapes (rows of different lengths, rows longer or shorter than their number) and all placements in memory.", "anchors": ["src/SharedLibrary/GeneratedCode/SharedLibrary_L1NormalizeFeaturizer.cpp: FitBuffer", "src/SharedLibrary/GeneratedCode/SharedLibrary_ForecastingPivotFeaturizer.cpp: FitBuffer", "src/SharedLibrary/GeneratedCode/SharedLibrary_LagLeadOperatorFeaturizer.cpp: Fit, FitBuffer, Transform", "src/SharedLibrary/GeneratedCode/SharedLibrary_CatImputerFeaturizer.cpp: Fit, FitBuffer", "src/SharedLibrary/GeneratedCode/SharedLibrary_PCAFeaturizer.cpp: Fit, FitBuffer"]}
{"id": "C74", "title": "Result buffers of the C interface", "statement": "Whatever results of whatever kinds a caller has the C interface create (strings, error messages, vectors, lists of strings, lists of vectors, matrices, sparse vectors, matrices with keys, decomposed dates, country names, saved transformers) and in whatever order it destroys them: every call succeeds unless memory runs out; each result that was not yet destroyed shows exactly the value it was created for; memory that was in use is never changed; a call that fails for lack of memory leaves nothing behind; and when all results have been destroyed, the memory is as it was at the beginning (nothing leaks, nothing is released twice).", "quantifier": "every history of creating and destroying results, every allocator, every value including empty ones, every allocation that is refused", "why_tests_cant": "Leaks, double releases and overlaps depend on the history of calls, on the allocator and on which allocation is refused; empty results take branches of their own.", "anchors": ["src/SharedLibrary/GeneratedCode: Transform, Flush, DestroyTransformedData of every featurizer, e.g. SharedLibrary_LagLeadOperatorFeaturizer.cpp, SharedLibrary_PCAFeaturizer.cpp, SharedLibrary_CountVectorizerFeaturizer.cpp, SharedLibrary_ForecastingPivotFeaturizer.cpp, SharedLibrary_BackwardFillImputerFeaturizer.cpp", "src/SharedLibrary/SharedLibrary_Common.cpp: CreateErrorInfo, DestroyErrorInfoString, DestroyTransformerSaveData", "src/SharedLibrary/SharedLibrary_DateTimeFeaturizerCustom.cpp: GetSupportedCountries, DestroyStringBuffers"]}
{"id": "C75", "title": "Median imputation in floating point", "statement": "For every column of float, double, integer or bool values without infinities, nulls included, that has at least one value, with the rounding of the machine's arithmetic: training the median imputer succeeds, and missing values become one finite double, the middle value of the column or, if its number of values is even, the nearest double to the exact mean of the two middle values, never outside of them (for bool: true if at least half of the values are); other values come out as they are, as doubles. A column without a value is refused with runtime_error.", "quantifier": "every column, batching, cap and input type", "why_tests_cant": "The median depends on the order and multiplicity of all values; whether its computation stays exact, ordered and finite depends on all bits of the two middle values.", "anchors": ["src/Featurizers/MedianImputerFeaturizer.h: MedianImputerEstimatorImpl, create_transformer_impl", "src/Featurizers/Components/MedianEstimator.h: MedianTrainingOnlyPolicy, fit, complete_training, _get_interpolated_value", "src/Featurizers/Components/ImputerTransformer.h: execute_impl"]}
{"id": "C76", "title": "Robust scaling in floating point", "statement": "The robust scaler accepts no quantile range (two NaNs) or one with 0 <= a <= b <= 100, everything else is invalid_argument. For every column of float, double or integer values without infinities that has at least one value, with the rounding of the machine's arithmetic: training succeeds; it then computes (x - m)/s up to the rounding of two operations, with m the median of the column as in the previous property (0 without centering) and s within rounding of (max - min)(b - a)/100 (not dividing if that is 0, or without a range); nulls become NaN, the median becomes 0, and results are in the order of the inputs. With the default range from 25 to 75, s is the nearest number to half of the range of the values. A column without a value, or with an infinity, is refused with runtime_error.", "quantifier": "every column, batching, cap, option, quantile range and input type", "why_tests_cant": "The result depends on the median and the extremes of columns of any length and on the rounding of five operations; whether intermediate results overflow depends on all bits of the values.", "anchors": ["src/Featurizers/RobustScalerFeaturizer.h: RobustScalerEstimatorImpl, create_transformer_impl, RobustScalerTransformer::execute_impl", "src/Featurizers/Components/MedianEstimator.h: MedianTrainingOnlyPolicy", "src/Featurizers/Components/StatisticalMetricsEstimator.h: StandardStatsUpdater"]}
{"id": "C77", "title": "Principal components: a projection that keeps geometry, but not the components", "statement": "A PCA transformer handed out after any sequence of calls was trained on exactly one matrix, which is not empty, and holds orthonormal eigenvectors of its covariances, in increasing order of variance; without a fitted matrix none is handed out. It accepts exactly the matrices with at least one row and the trained number of columns (invalid_argument otherwise) and returns a matrix of the same shape. In exact arithmetic, scalar products and distances of rows are preserved and the input is recoverable from the output. The columns of the transformed training data should be the principal components, which are uncorrelated.", "quantifier": "all call histories, training matrices, eigenvectors a conforming solver may return, and input matrices", "why_tests_cant": "The tests transform one 2-column data set and compare squared entries only.", "anchors": ["src/Featurizers/PCAFeaturizer.h: PCAEstimator, PCATransformer"]}
{"id": "C78", "title": "Truncated singular value decomposition: directions, order and signs", "statement": "A truncated SVD transformer handed out after any sequence of calls was trained on exactly one matrix, which is not empty, and has as many directions as the smaller dimension of that matrix. It accepts exactly the matrices with at least one row and the trained number of columns. In exact arithmetic, when the random samples span the matrix, the directions are its right singular vectors in decreasing order of singular values, the transformed training data have orthogonal columns of these lengths, and the data are recoverable; the result does not depend on the signs the solver chose, and in each column an entry of largest magnitude is not negative. This should hold whatever the scale of the data, and the result of a row should not depend on the other rows of the matrix.", "quantifier": "all call histories, training matrices, random numbers drawn, singular vectors a conforming solver may return, and input matrices", "why_tests_cant": "The tests transform a handful of matrices, with the random numbers of one generator.", "anchors": ["src/Featurizers/TruncatedSVDFeaturizer.h: svd_flip, sample_gaussian, gram_schmidt, TruncatedSVDEstimator, TruncatedSVDTransformer"]}
{"id": "C79", "title": "Exceptions thrown by the caller's callback", "statement": "When the callback passed to execute or flush of any transformer throws, the exception reaches the caller, no further value is passed, and the values passed so far are exactly the first values of the undisturbed call, in order; when it never throws the call is the undisturbed one. In a pipeline of any length an exception of a later stage (which reaches the earlier stages through their callbacks) ends the call with the same values and the same exception whatever the earlier stages are.", "quantifier": "all transformers, states, inputs and callbacks, throwing at any of their calls; pipelines of any length", "why_tests_cant": "The point at which a callback throws, its state and the number of values pending are arbitrary; no test of the library has a throwing callback.", "anchors": ["src/Featurizers/ForwardFillImputerFeaturizer.h, BackwardFillImputerFeaturizer.h, LagLeadOperatorFeaturizer.h: execute_impl, flush_impl", "src/Featurizers/Components/Details/PipelineExecutionEstimatorImpl_details.h: TransformerChainElement execute, flush", "src/Featurizers/Components/GrainFeaturizerImpl.h, FilterFeaturizerImpl.h: execute_impl, flush_impl"]}
{"id": "C80", "title": "Repeating a call after the callback threw", "statement": "After an exception of the callback, calling execute again with the same input (or flush again) passes exactly the values still missing, beginning with the one at which the callback threw, and leaves the transformer as the undisturbed call would have, however often this happens: for every stateless transformer, for forward fill, for flush of backward fill, and for filters, grains and pipelines of any length made of such transformers. It does not hold for execute of backward fill (every pending value is passed again), lag/lead operators and rolling windows (the row is fed twice), normalizers (the next row's norm is used), time series imputers (added rows are lost), the forecasting pivot (earlier columns are passed again), nor for flush of lag/lead operators.", "quantifier": "all states, inputs, callbacks, numbers of repetitions, grains and pipelines", "why_tests_cant": "Whether anything is lost or passed twice depends on the order of state updates and callbacks in every stage of a pipeline and on the call at which the callback threw.", "anchors": ["src/Featurizers/ForwardFillImputerFeaturizer.h: execute_impl", "src/Featurizers/BackwardFillImputerFeaturizer.h: execute_impl, flush_impl", "src/Featurizers/LagLeadOperatorFeaturizer.h: execute_helper, flush_impl", "src/Featurizers/Base/RollingWindowTransformerBase.h: execute_impl", "src/Featurizers/Base/NormalizeFeaturizer.h: execute_impl", "src/Featurizers/Components/TimeSeriesImputerTransformer.h: bfill, ffill_or_median, flush_impl"]}
{"id": "C81", "title": "Skipping an input after the callback threw", "statement": "After an exception of the callback, going on with the next input loses the values of that call and nothing else: the transformer is as the undisturbed call would have left it. This holds for execute of stateless transformers, lag/lead operators, rolling windows, normalizers, time series imputers and the pivot, for flush of time series imputers, for filters and grains of such transformers and for pipelines whose first half passes on at most one value per input. It does not hold for forward fill (the value is forgotten), backward fill (nulls stay pending) and flush of lag/lead operators (the next series sees rows of the old one); forward fill followed by a lag/lead operator can neither be repeated nor skipped.", "quantifier": "all states, inputs and callbacks; grains and pipelines", "why_tests_cant": "As for the previous property.", "anchors": ["src/Featurizers/LagLeadOperatorFeaturizer.h: execute_helper, flush_impl", "src/Featurizers/Base/RollingWindowTransformerBase.h: execute_impl", "src/Featurizers/Base/NormalizeFeaturizer.h: execute_impl", "src/Featurizers/Components/TimeSeriesImputerTransformer.h: bfill, ffill_or_median, flush_impl"]}
{"id": "C82", "title": "Rolling windows of floating point numbers", "statement": "For float and double series of finite numbers, each rolling minimum is a least number of its window and each rolling maximum a greatest number of it. The rolling mean is the double nearest to the exact mean when the numbers are multiples of one power of two whose sum has at most 24 (float) or 53 (double) bits, and in general is within (n+1) units of the last place of the value type, relative to the mean magnitude of the n numbers. A missing value makes the means of its windows missing and is ignored by minimum and maximum.", "quantifier": "all series of bit patterns, window sizes, horizons and minimum window sizes", "why_tests_cant": "The tests average a few small integers; rounding, overflow of the sum, negative and missing values depend on the numbers of each window.", "anchors": ["src/Featurizers/AnalyticalRollingWindowFeaturizer.h", "src/Featurizers/SimpleRollingWindowFeaturizer.h", "MinCalculator.h, MaxCalculator.h, SumCalculator.h, MeanCalculator.h: update_impl, commit_impl"]}
{"id": "C83", "title": "Tf-idf weights in floating point", "statement": "For a document with n different terms of the vocabulary, n up to 2^20, every value of the tf-idf vector is a positive finite float within the relative error (n+10)/2^22 of the exactly computed weight divided by the exactly computed norm of the document; with L1 normalisation the values sum to 1, with L2 normalisation their squares do, up to the same order of error. Nothing overflows, becomes zero or missing, whatever the counts, document frequencies and options.", "quantifier": "all training corpora of fewer than 2^32 - 1 documents, documents, options and logarithms with an error of at most one unit in the last place", "why_tests_cant": "The tests compare a few vectors of three or four terms; rounding of factors, of the running norm and of the quotients depends on every count and on the number of terms.", "anchors": ["src/Featurizers/TfidfVectorizerFeaturizer.cpp: execute_impl", "src/Featurizers/TfidfVectorizerFeaturizer.h"]}
{"id": "C84", "title": "Count vectorizer estimator", "statement": "A count vectorizer's estimator behaves like the tf-idf estimator it owns: it waits for training, is complete and has handed out its transformer exactly when the owned one is and has; trained with the standard loop on any batches, on a column with or without document statistics, it ends with a transformer that counts, in every document, the terms of the vocabulary chosen from the training documents (or with the exception of an empty vocabulary). Trained transformers can be compared.", "quantifier": "all histories of calls, training data, batch splits, caps, options and annotations", "why_tests_cant": "The tests train one vectorizer per column and compare outputs; the combination of the two training states with every order of calls, and columns with statistics from elsewhere, are not exercised.", "anchors": ["src/Featurizers/CountVectorizerFeaturizer.h: begin_training_impl, fit_impl, complete_training_impl, create_transformer_impl", "src/Featurizers/CountVectorizerFeaturizer.cpp: operator=="]}
{"id": "C85", "title": "Sample add featurizer", "statement": "After any history of calls, the transformer of the sample add estimator adds to each input the sum, modulo 2^32, of all numbers of the fit calls that did not throw, and its saved form is read back to the same transformer.", "quantifier": "all call histories, batches and inputs", "why_tests_cant": "The tests use three numbers; wrap-around and rejected calls depend on the history.", "anchors": ["src/Featurizers/SampleAddFeaturizer.cpp: fit_impl, execute_impl, save"]}
{"id": "C86", "title": "Execute with a return value", "statement": "execute(input) of a transformer that maps each input to one value returns exactly the value that execute(input, callback) passes to the callback, throws the same exceptions and leaves the same state; it never reads memory without an object in it and destroys every object it constructs.", "quantifier": "all transformer classes that have this function, states and inputs, with assert enabled or disabled", "why_tests_cant": "The tests call it where there is exactly one value; how often execute_impl calls the callback depends on state and input.", "anchors": ["src/Featurizer.h: StandardTransformer::execute", "src/Featurizers/ForecastingPivotFeaturizer.h: execute_impl"]}
{"id": "C87", "title": "Calls without a callback", "statement": "execute and flush with an empty callback throw invalid_argument and pass no value, and all other calls of the history behave as if these calls had not been made.", "quantifier": "all transformers and histories of calls with and without callbacks, throwing or not", "why_tests_cant": "histories with refused calls anywhere are not enumerable", "anchors": ["src/Featurizer.h: Transformer::execute, Transformer::flush"]}
{"id": "C88", "title": "Filter decorators", "statement": "A filter decorator maps each row to exactly the selected columns in the selected order (a bare value for one column), one value per row, never throws and emits nothing on flush; after a column filter it can recover the original row as well as the wrapped transformer's value.", "quantifier": "all rows, column selections and numbers of rows", "why_tests_cant": "arbitrary arities and selections", "anchors": ["src/Featurizers/Components/FilterDecoratorFeaturizer.h: FilterDecoratorTransformer::execute_impl", "src/Featurizers/Components/Details/FilterTraits.h"]}
{"id": "C89", "title": "Texts of containers", "statement": "The text of a vector, array, matrix, map, set or tuple is the texts of its elements in order, separated by commas, in brackets (a colon between key and value); different values of the same type have different texts; reading such a text throws logic_error.", "quantifier": "all values of all nested types built from integers, booleans, optional values and containers; all texts", "why_tests_cant": "Nesting is unbounded and telling all pairs of values apart is a statement about infinitely many values; it is false for strings, floating point numbers, matrices.", "anchors": ["src/Traits.h: ToStringImpl, ToMapString, ToSetString, Traits<std::tuple>::ToString, FromString"]}
{"id": "C90", "title": "Robust scaler with default arguments in the C interface", "statement": "An estimator created through the C interface with RobustScalerFeaturizer_..._CreateEstimatorWithDefault can be trained with Fit and CompleteTraining and turned into a transformer, like one created with CreateEstimator.", "quantifier": "all histories of calls of the C interface, after the estimator was created with default arguments", "why_tests_cant": "The integration test only creates the estimator; that no later call can ever train it is a statement about all histories.", "anchors": ["src/SharedLibrary/SharedLibrary_RobustScalerFeaturizerCustom.cpp: RobustScalerFeaturizer_CreateEstimatorWithDefault", "src/Featurizer.h: FitEstimator::fit, begin_training"]}
{"id": "C91", "title": "Numbers for the options of the tf-idf vectorizer", "statement": "The norm, the analyzer and the policy of a tf-idf vectorizer are passed through the C interface and stored in archives as numbers. The numbers 1, 2 and 3 select the documented norms; a number that stands for no norm is rejected, or at least never makes the vectorizer yield values that are not finite. Bits of the policy beyond the four flags have no effect.", "quantifier": "all transformers (members read from an archive or passed through the C interface), all documents", "why_tests_cant": "Tests use the enumerators; all 256 numbers for the norm, with all documents and vocabularies, are beyond them.", "anchors": ["src/Featurizers/TfidfVectorizerFeaturizer.cpp: TfidfVectorizerTransformer, execute_impl", "src/SharedLibrary/GeneratedCode/SharedLibrary_TfidfVectorizerFeaturizer.cpp: TfidfVectorizerFeaturizer_CreateEstimator", "src/Featurizers/Components/DocumentStatisticsEstimator.cpp: DocumentParseFuncGenerator, DocumentDecorator"]}
{"id": "C92", "title": "Encoders and the mode imputer on floating point columns", "statement": "The categories of a float or double column are its different numbers: -0 and +0 are the same category, equal numbers get the same code, codes follow the order of the numbers, and a number not seen in training is missing. NaN is a missing value: whether and how often it occurs in the training data makes no difference to the codes of the numbers or to the number of one-hot columns, and it is never the mode, which is the number seen most often, the first of these.", "quantifier": "all training data (numbers, NaNs with any payload, both zeros) in all batches, all hash table iteration orders and bucket layouts, all inputs", "why_tests_cant": "NaN compares unequal to itself and breaks the requirements of std::sort and of hash tables; the outcome then depends on the data, the table order and the algorithm, so passing tests say nothing.", "anchors": ["src/Featurizers/Components/HistogramEstimator.h: HistogramTrainingOnlyPolicy::fit", "src/Featurizers/Components/IndexMapEstimator.h: CreateIndexMap", "src/Featurizers/Components/OrderEstimator.h: OrderTrainingOnlyPolicy::fit", "src/Featurizers/Components/ModeEstimator.h: ModeTrainingOnlyPolicy::complete_training", "src/Featurizers/LabelEncoderFeaturizer.h: LabelEncoderTransformer", "src/Featurizers/OneHotEncoderFeaturizer.h: OneHotEncoderTransformer", "src/Featurizers/NumericalizeFeaturizer.h: NumericalizeTransformer", "src/Featurizers/ModeImputerFeaturizer.h: ModeImputerEstimatorImpl", "src/Traits.h: Traits<std::float_t>::key_equal, Traits<std::double_t>::key_equal"]}
{"id": "C93", "title": "Bounds on the document frequency", "statement": "The vocabulary of a text vectorizer contains no term whose share of the training documents is less than min_df or more than max_df, and no term is left out because of a bound that it meets: terms exactly at a bound written as a fraction, such as 0.1 with 3 of 30 documents, are kept. Shares are compared as the numbers they are, not as rounded ones.", "quantifier": "all bounds that the constructor accepts (NaN included), all numbers of documents, all terms and training documents", "why_tests_cant": "The shares are quotients rounded to float and compared with rounded bounds; whether rounding moves a term across a bound depends on each pair of counts and each bound.", "anchors": ["src/Featurizers/Components/DocumentStatisticsEstimator.cpp: PruneTermFreqMap, DocumentStatisticsTrainingOnlyPolicy", "src/Featurizers/Components/DocumentStatisticsEstimator.h: DocumentStatisticsEstimator", "src/Featurizers/TfidfVectorizerFeaturizer.h: TfidfVectorizerEstimator", "src/Featurizers/CountVectorizerFeaturizer.h: CountVectorizerEstimator"]}
{"id": "C94", "title": "Repeated country lookups", "statement": "Asking whether a country is supported, listing the supported countries and creating date-time estimators and transformers answer according to the data directory alone: the answer to a call does not depend on how many such calls were made before, whether they succeeded or threw, and the resources the calls use are given back.", "quantifier": "all data directories, data roots and country names, all finite sequences of calls, all limits on open directory streams", "why_tests_cant": "A test makes a handful of calls; the limit on open streams of a process (often 1024) is reached only after as many successful lookups.", "anchors": ["src/Featurizers/DateTimeFeaturizer.cpp: EnumCountries, IsValidDirectory, GetDateTimeFeaturizerDataDirectory, DateTimeEstimator::IsValidCountry, DateTimeEstimator::GetSupportedCountries, DateTimeTransformer::DateTimeTransformer", "src/SharedLibrary/SharedLibrary_DateTimeFeaturizerCustom.cpp: DateTimeFeaturizer_IsValidCountry, DateTimeFeaturizer_GetSupportedCountries"]}
{"id": "C95", "title": "Saved date-time transformers", "statement": "A date-time transformer made for a country, saved and loaded on the same machine knows the same holidays as before, whichever data root it was made with.", "quantifier": "all file systems, data roots and countries, all hosts' byte orders and positions in the buffer, all numbers of open streams below the limit", "why_tests_cant": "Only the country is saved; what the loaded transformer knows is read from the file system again, and depends on the data root of the loading call.", "anchors": ["src/Featurizers/DateTimeFeaturizer.cpp: DateTimeTransformer::DateTimeTransformer, DateTimeTransformer::save", "src/SharedLibrary/SharedLibrary_DateTimeFeaturizerCustom.cpp: DateTimeFeaturizer_CreateTransformerFromSavedDataWithDataRoot", "src/SharedLibrary/GeneratedCode/SharedLibrary_DateTimeFeaturizer.cpp: DateTimeFeaturizer_CreateTransformerFromSavedData"]}
{"id": "C96", "title": "Replacement values of time series on doubles", "statement": "Trained with the median strategy on rows whose cells in a floating point column are decimal numbers, the time series imputer replaces null cells of a series by a decimal number with six decimals that is at most half a millionth, plus the rounding errors of doubles, away from the mean of the numbers the training rows of that series and column hold.", "quantifier": "all decimal texts, all numbers of rows, series and columns, all splits into batches", "why_tests_cant": "Rounding errors grow with the number of rows and depend on the order and size of the values; tests use a few short decimals.", "anchors": ["src/Featurizers/Components/TimeSeriesMedianEstimator.h: TimeSeriesMedianTrainingOnlyPolicy, complete_training", "src/Featurizers/TimeSeriesImputerFeaturizer.h: TimeSeriesImputerEstimator", "src/Traits.h: Traits<std::double_t>"]}
{"id": "C97", "title": "Saved min-max scalers of floating point columns", "statement": "A min-max scaler trained on floating point numbers can be saved and loaded, and the loaded scaler scales every number between the least and the greatest training value to the same result up to a few rounding errors.", "quantifier": "all columns of finite numbers and NaN, all splits into batches, all numbers to be scaled; float and double", "why_tests_cant": "save writes minimum + span instead of the maximum, so whether a round trip is exact depends on the bits of minimum and maximum; tests use small integers, for which it is.", "anchors": ["src/Featurizers/MinMaxScalerFeaturizer.h: MinMaxScalerTransformer::MinMaxScalerTransformer, MinMaxScalerTransformer::save, MinMaxScalerTransformer::execute_implex"]}
{"id": "C98", "title": "Global minimum frequency of grained time series", "statement": "Training a grained frequency estimator and then a global minimum frequency estimator on the same rows publishes the smallest distance of two consecutive times of one grain, over all grains, whatever the interleaving of the grains; if there are no rows, or some grain has a single row or times that do not increase, training throws.", "quantifier": "all lists of rows with grain and time, all interleavings, all splits into batches, all limits on the number of training rows", "why_tests_cant": "the result combines a per-grain state machine, the collection of the annotations of all grains and a second estimator that only reads them; tests use two grains and a handful of rows.", "anchors": ["src/Featurizers/Components/GlobalMinimumFrequencyEstimator.h: GlobalMinimumFrequencyTrainingOnlyPolicy::complete_training", "src/Featurizers/Components/FrequencyEstimator.h: GrainedFrequencyEstimator", "src/Featurizers/Components/GrainFeaturizerImpl.h: GrainEstimatorImplBase::complete_training_impl, GrainEstimatorImplBase::get_annotation"]}
{"id": "C99", "title": "Time series imputer trained and used through byte buffers only", "statement": "A client of the C interface that describes its columns, passes training rows as byte buffers (one by one or many at once), completes training and calls Transform with byte buffers gets what the library does with the values in the buffers: each training call answers like Fit with those rows, a buffer that is null, empty or truncated fails the call and leaves the estimator unchanged (in FitBuffer the whole call has no effect), the trained frequency and replacement values are those of the rows, and every later Transform answers with the bytes of the rows that the imputer trained on these rows puts out.", "quantifier": "all column types, all histories of training calls, all rows of the declared types, any host byte order, any addresses and trailing bytes, all truncation points, all sequences of Transform calls", "why_tests_cant": "the result passes through text in both directions and through the training state machine; tests use one column layout and a few rows.", "anchors": ["src/SharedLibrary/Featurizers/SharedLibrary_TimeSeriesImputerFeaturizer.cpp: TimeSeriesImputerFeaturizer_BinaryArchive_CreateEstimator, _Fit, _FitBuffer, _OnDataCompleted, _CompleteTraining, _CreateTransformerFromEstimator, _Transform", "src/Featurizers/TimeSeriesImputerFeaturizer.h: TimeSeriesImputerEstimator", "src/Featurizers/Components/TimeSeriesMedianEstimator.h: fit_impl"]}
{"id": "C100", "title": "Loading a transformer from arbitrary bytes", "statement": "Whatever bytes are given to the archive constructor of a transformer (or of a pipeline of transformers), the call does what the archive format says about those bytes, on every machine and wherever they lie: it returns the transformer they describe and stops right behind them, or throws; it never reads outside the archive. Bytes behind the described transformer make no difference. No bytes yield an object the ordinary constructor would refuse, a key listed twice gets its first value, and whatever was loaded can be saved and loaded again unchanged.", "quantifier": "all byte sequences (truncated, corrupted, hostile, with trailing bytes), all transformer classes and the types they are instantiated with, all pipelines, both byte orders, all addresses and preceding bytes", "why_tests_cant": "the space of byte sequences is unbounded; tests only load what save wrote, or cut it short.", "anchors": ["src/Archive.h: deserialize, get_buffer_ptr, update_buffer_ptr", "src/Traits.h: deserialize of every Traits specialisation", "src/Featurizers: the archive constructor of every transformer", "src/Featurizers/Components/TimeSeriesImputerTransformer.h: Transformer(Archive &)", "src/Featurizers/Components/PipelineExecutionEstimatorImpl.h: PipelineExecutionTransformer(Archive &)"]}
{"id": "C101", "title": "The life of the grained lag/lead operator and of the grained rolling windows", "statement": "A lag/lead operator or rolling window over any number of series needs no training data: with a positive horizon, a positive minimum window not above the maximum (or at least one offset) the estimator is made and trained whatever rows are offered, and otherwise construction throws. From then on, through any sequence of rows of interleaved series, flushes, and saving and loading at any time, every call succeeds and every row is answered, in order, from the rows of its own series since the last flush or reload only: rows of other series, of earlier stretches and the place where the transformer was saved have no influence. The code of the calculation survives the archive.", "quantifier": "all horizons, window sizes and offsets, all keys, all interleavings of series, all histories of rows, flushes and save/load cycles, both byte orders and all addresses, all finite float and double bit patterns", "why_tests_cant": "histories, interleavings and places of save and load are unbounded; tests run one transformer over one short series and flush it once.", "anchors": ["src/Featurizers/LagLeadOperatorFeaturizer.h: GrainedLagLeadOperatorEstimator, LagLeadOperatorTransformer", "src/Featurizers/SimpleRollingWindowFeaturizer.h: GrainedSimpleRollingWindowEstimator, SimpleRollingWindowTransformer", "src/Featurizers/AnalyticalRollingWindowFeaturizer.h: GrainedAnalyticalRollingWindowEstimator, AnalyticalRollingWindowTransformer", "src/Featurizers/Components/GrainFeaturizerImpl.h: GrainTransformer, GrainEstimatorImpl"]}
{"id": "C102", "title": "Which parameters the constructors of transformers accept", "statement": "Each transformer is constructible exactly when its parameters make sense, and otherwise construction throws the documented exception: one-hot encoders and vectorizers need a category, hash vectorizers a column, min-max scalers a minimum not above the maximum, standard scalers and normalizers no negative deviation or norm, projections a matrix with a row and a column, lag/lead operators and rolling windows a positive horizon and sensible windows, text conversions a nullable type for the flag, time series imputers known column types and strategies, date-time featurizers a known country. All other constructors accept everything.", "quantifier": "all parameters of every transformer class, including all double bit patterns", "why_tests_cant": "parameter spaces are unbounded (maps, matrices, lists, all bit patterns of doubles); tests try one bad value per check.", "anchors": ["src/Featurizers: the constructors of every transformer class", "src/Traits.h: IsValid(TypeId)"]}
{"id": "C103", "title": "Saving and loading transformers through the C interface", "statement": "The bytes CreateTransformerSaveData returns for a handle, after any history of calls, can be given to CreateTransformerFromSavedData in any process, after any other history, on a machine of either byte order, with any bytes behind them: the call succeeds with a new handle for an equal transformer, and from then on both handles answer every Transform alike. Saving changes nothing. Arbitrary bytes never disturb other handles: they give a handle for the transformer they describe, or an error handle and no transformer; a null or empty buffer is refused.", "quantifier": "all transformer classes and their objects, all histories of both processes, all byte sequences, byte orders, addresses and inputs", "why_tests_cant": "histories, byte sequences and pairs of processes are unbounded; tests save and load once in the same process.", "anchors": ["src/SharedLibrary/GeneratedCode/SharedLibrary_CatImputerFeaturizer.cpp: CreateTransformerSaveData, CreateTransformerFromSavedData, Transform (and the same functions of the other generated files)", "src/Archive.h: Archive(unsigned char const *, size_t), commit"]}
{"id": "C104", "title": "One handle of the C interface behaves as if nobody used the others", "statement": "In any history of calls of the C interface, the replies to the calls on one estimator or transformer handle, from its creation until it is destroyed, are those that the C++ object gives to a program that has it for itself and makes the same calls in the same order, whether they succeed or fail and whatever calls on other handles come in between. So an estimator that is created, fitted batch by batch and completed with success, and the transformer made from it, answer as the standard training in C++ on these batches says; a client that runs the standard loop (ask for the state, fit, start over after Reset, report the end of the data), seeing only the replies, gets the transformer of the standard training in C++; a label encoder trained in this way gives each training value its position among the training values in increasing order; and the arrays that backward fill returns for the rows of a series and the flush hold, one after the other, the next value that is not null (or the default value) of each row.", "quantifier": "all featurizers, all histories before and during the use of the handle with any number of other handles, all batches, rows and failures", "why_tests_cant": "interleavings of the users of a library are unbounded; the tests use one handle at a time.", "anchors": ["src/SharedLibrary/GeneratedCode/SharedLibrary_CatImputerFeaturizer.cpp, SharedLibrary_BackwardFillImputerFeaturizer.cpp: Fit, FitBuffer, OnDataCompleted, CompleteTraining, CreateTransformerFromEstimator, Transform, Flush", "src/SharedLibrary/SharedLibrary_PointerTable.h"]}
{"id": "C105", "title": "A featurizer trained in one process answers the same in another", "statement": "If an estimator is created, fitted and completed through the C interface of one process, and the transformer made from it is used, saved and its bytes are loaded through the C interface of another process, on a machine of the same or the other byte order and in whatever state that process is, then the answers of the loaded handle are those that the transformer of the standard C++ training gives to the questions of the second process after those of the first. So a label encoder gives, in the second process too, every training value its position among the different training values in increasing order (from 1 if unknown values are allowed) and every other value 0, or an error; a max-abs scaler divides by the largest absolute value of the training data, a standard scaler subtracts their mean and divides by their standard deviation (up to rounding), and a categorical imputer replaces nulls by their most frequent value.", "quantifier": "all pipelines of one transformer with a state that can be archived, all training batches, all histories of both processes with any number of other handles, both byte orders", "why_tests_cant": "the chain training, archive, other process and other byte order is too long for the tests, which check its links on single values and on one machine.", "anchors": ["src/SharedLibrary/GeneratedCode/SharedLibrary_LabelEncoderFeaturizer.cpp: Fit, CompleteTraining, CreateTransformerFromEstimator, CreateTransformerSaveData, CreateTransformerFromSavedData, Transform", "src/Featurizers/LabelEncoderFeaturizer.h", "src/Featurizer/PipelineExecutionEstimatorImpl.h"]}
{"id": "C106", "title": "What can be trained in C++ can be trained through the C interface", "statement": "If training a featurizer in C++ with some batches ends with a transformer, then a client that follows the standard loop through the C interface (ask for the state, fit the next batch, report the end of the data, complete, create the transformer), in a process in any state, never meets an error: whatever others do with other handles in between, each of its calls succeeds as long as memory and handles are available, the number of its calls is bounded by that of the C++ training, and at the end it has a handle that stands for the same transformer. The transformer can then be saved, and loaded in every other process.", "quantifier": "all featurizers, all training batches with which the C++ training succeeds, all histories and interleavings with other handles, all addresses and handle numbers drawn", "why_tests_cant": "whether a call is refused depends on the state of the estimator, on the handle table and on what other clients did before; tests run one client in a fresh process.", "anchors": ["src/SharedLibrary/GeneratedCode/SharedLibrary_CatImputerFeaturizer.cpp: CreateEstimator, GetState, Fit, FitBuffer, OnDataCompleted, CompleteTraining, CreateTransformerFromEstimator, CreateTransformerSaveData, CreateTransformerFromSavedData", "src/SharedLibrary/IntegrationTests/GeneratedCode/SharedLibraryTests_CatImputerFeaturizer.h", "src/Featurizers/TestHelpers.h: Train", "src/SharedLibrary/PointerTable.h: Add"]}
