{"id": "C01", "title": "Tree depth never exceeds MaxDepth", "statement": "If NewTree(X, o) returns a tree, every root-to-leaf path in it has at most max(0, o.MaxDepth) splits.", "quantifier": "every data matrix, every tree option value, both tree kinds, every arithmetic (rounding mode included) and every correct sort", "why_tests_cant": "depth is reached only for particular data; a test shows one tree, not that no data set produces a deeper one", "anchors": ["tree.go:NewTree", "tree.go:maybeInsertChildNode"]}
{"id": "C02", "title": "Leaf() agrees with the children, so prediction never follows a nil child", "statement": "In every tree returned by NewTree, a node reports Leaf() exactly when it has no children and otherwise has both; hence PredictSingle on any row that has all split features returns a value and never dereferences a nil child.", "quantifier": "every data matrix, options and row; any floating-point arithmetic whose comparison obeys the IEEE order laws", "why_tests_cant": "leafness is encoded in a float score (0 or +Inf); only an argument over all score sequences excludes a split node that looks like a leaf", "anchors": ["tree.go:Leaf", "tree.go:PredictSingle", "tree.go:maybeInsertChildNode", "tree.go:findBetterSplit"]}
{"id": "C03", "title": "Leaves partition the training sample", "statement": "The sample index lists stored in the leaves of a tree returned by NewTree, concatenated left to right, are a permutation of the index list the tree was built from: no training row is lost, duplicated or put in two leaves.", "quantifier": "every data matrix (NaN included), options, index list", "why_tests_cant": "needs all data sets and all thresholds", "anchors": ["tree.go:maybeInsertChildNode", "tree.go:NewTree"]}
{"id": "C04", "title": "A training row is predicted by the leaf that contains it", "statement": "For every training row index i used to build the tree, PredictSingle(X[i]) returns the value of the leaf whose sample list contains i.", "quantifier": "every data matrix, options, training row", "why_tests_cant": "training-time partitioning and prediction-time routing are separate code paths that must agree for every value", "anchors": ["tree.go:maybeInsertChildNode", "tree.go:PredictSingle"]}
{"id": "C05", "title": "Branches() counts the nodes", "statement": "Branches() of a tree returned by NewTree equals its number of nodes, which is odd and at most 2^(MaxDepth+1)-1.", "quantifier": "every data matrix and options", "why_tests_cant": "a counting invariant over all recursive shapes", "anchors": ["tree.go:Branches", "tree.go:maybeInsertChildNode"]}
{"id": "C06", "title": "MinChildWeight: no child gets fewer samples than requested", "statement": "Every child of every split in a tree returned by NewTree contains at least int(MinChildWeight) training samples (and at least one).", "quantifier": "every NaN-free data matrix, options; exact arithmetic and IEEE binary64", "why_tests_cant": "whether the midpoint threshold separates two neighbours depends on rounding of rare value pairs", "anchors": ["tree.go:findBetterSplit", "tree.go:maybeInsertChildNode"]}
{"id": "C07", "title": "The chosen split is the best admissible split", "statement": "When a node of a tree is split, the recorded score is the best (largest gain for xgboost, smallest for regular boosting) among all features allowed at that node and all thresholds that leave at least MinChildWeight samples on both sides, where the gain is computed from the sums of gradients/hessians (targets) over each side; if a node below MaxDepth is a leaf, no admissible split has positive gain (xgboost) or there is no admissible split at all (regular).", "quantifier": "every finite data matrix, gradients, hessians/targets, options; exact arithmetic", "why_tests_cant": "optimality quantifies over all thresholds and features, and the implementation uses running sums over a sorted order instead of recomputing each candidate", "anchors": ["tree.go:findBetterSplit", "tree.go:maybeInsertChildNode"]}
{"id": "C08", "title": "Column subsampling: a tree only splits on allowed columns", "statement": "If AllowedColumns is not empty, every split of the tree returned by NewTree is on a column in AllowedColumns.", "quantifier": "every data matrix and options", "why_tests_cant": "needs every depth of every tree", "anchors": ["tree.go:TreeOptions.AllowedColumns", "tree.go:clone", "tree.go:maybeInsertChildNode"]}
{"id": "C09", "title": "XGBoost node value is the regularised optimum", "statement": "Each node of an xgboost tree carries value -G/(H+Lambda) with G and H the gradient and hessian sums over its samples, and, when H+Lambda>0, no other weight w gives a smaller G*w + (H+Lambda)*w^2/2.", "quantifier": "every node of every tree, every gradient/hessian vector; exact arithmetic (C94 has the float64 bounds)", "why_tests_cant": "an optimality claim over all real weights", "anchors": ["tree.go:NewTree"]}
{"id": "C10", "title": "Regular tree predictions are means and never increase the squared error", "statement": "Each node of a regular (non-xgboost) tree carries the mean of the targets of its samples; predictions on training rows lie between the smallest and largest target, their sum equals the sum of targets, and the total squared error of the tree is at most that of the constant mean.", "quantifier": "every data matrix, target vector, options; exact arithmetic", "why_tests_cant": "requires all trees and all targets", "anchors": ["tree.go:NewTree", "tree.go:PredictSingle"]}
{"id": "C11", "title": "XGBoost splits only when the regularised objective improves", "statement": "Every split of an xgboost tree has strictly positive recorded gain, that gain equals one half of (score left + score right - score parent) minus Gamma/2, and therefore the tree's regularised training objective (with the code's penalty of Gamma/2 per split) is never worse than that of the unsplit root.", "quantifier": "every data matrix, gradients, hessians, Lambda, Gamma; exact arithmetic", "why_tests_cant": "a global inequality over trees of any shape", "anchors": ["tree.go:findBetterSplit", "tree.go:NewTree"]}
{"id": "C12", "title": "Building a tree on well-formed data never panics", "statement": "NewTree does not panic on a non-empty rectangular NaN-free data matrix with target (gradient, hessian) vectors of matching length, in-range distinct indexes and MinChildWeight >= 1.", "quantifier": "every such input, any depth; exact arithmetic and IEEE binary64", "why_tests_cant": "panics come from an empty child, which only rare rounding coincidences or extreme values produce", "anchors": ["tree.go:NewTree", "tree.go:findBetterSplit", "utils/math.go:TransposeFloats", "utils/math.go:SampleSlice"]}
{"id": "C13", "title": "Predict is row-wise, ignores unused features and honours the buffer contract", "statement": "Predict(data, nil)[i] equals PredictSingle(data[i]) for every i; with a buffer at least as long as data the first len(data) entries are overwritten with those values and the rest kept, with a shorter one it panics; two rows that agree on the features the tree splits on get the same prediction.", "quantifier": "every tree, every batch of rows, every buffer", "why_tests_cant": "universal over rows and buffers", "anchors": ["tree.go:Predict", "tree.go:PredictSingle"]}
{"id": "C14", "title": "Feature importance lists each feature once, with its summed gain, best first", "statement": "FeatureImportance of a tree or ensemble returns every feature used in a split exactly once, with score equal to the sum of the gains of its splits, and sorted best first (largest first for xgboost, most negative first for regular boosting).", "quantifier": "every tree and ensemble, every correct (possibly unstable) sort", "why_tests_cant": "sorting is interleaved with accumulation at every leaf; the final order must hold for all tree shapes", "anchors": ["tree.go:FeatureImportance", "tree.go:Feats", "multiclass.go:FeatureImportance"]}
{"id": "C15", "title": "Feats.Add is concurrency-safe", "statement": "After any set of concurrent Add calls on one Feats, under any interleaving, each feature appears once and its score is the sum of the gains added for it.", "quantifier": "every number of goroutines, every list of (feature, gain) pairs, every interleaving of the unlocked lookup and the locked update", "why_tests_cant": "a race that needs a specific schedule", "anchors": ["tree.go:Feats.Add", "tree.go:Feats.Merge"]}
{"id": "C16", "title": "A serialized tree is read back unchanged", "statement": "Reading back (UnJSONTree) the lines produced by JSONTree for a tree yields a tree with the same shape, split features, thresholds, values, scores, sample counts and kind, consumes exactly the lines written, and therefore predicts the same value for every row; node ids are consecutive from 1 in preorder.", "quantifier": "every tree with finite numbers (a non-finite number makes JSONTree return an error), any following text", "why_tests_cant": "round trip over unbounded shapes, including the sentinel score used for regular leaves", "anchors": ["utils/json.go:JSONTree", "utils/json.go:UnJSONTree", "xjson.go:JNode", "xjson.go:creator"]}
{"id": "C17", "title": "A serialized model is read back with the same predictions", "statement": "UnJSONMultiClass applied to the output of JSONMultiClass(m, \"softmax\", w) succeeds and returns a model with the same rounds, class labels, base score and learning rate, hence the same predictions for every row.", "quantifier": "every trained model with finite numbers", "why_tests_cant": "round trip over all models; tests only print accuracies", "anchors": ["xjson.go:JSONMultiClass", "xjson.go:UnJSONMultiClass"]}
{"id": "C18", "title": "A deserialized model keeps its kind", "statement": "For a model recovered by UnJSONMultiClass, FeatureImportance ranks the features in the same (best first) order as for the original model.", "quantifier": "every model", "why_tests_cant": "needs comparison of orders over all models", "anchors": ["xjson.go:UnJSONMultiClass", "multiclass.go:FeatureImportance"]}
{"id": "C19", "title": "A truncated model file is never misread", "statement": "If the file written by JSONMultiClass is cut at any byte (crash while writing), UnJSONMultiClass either returns an error or a model whose rounds are an initial segment of the original rounds, each tree intact.", "quantifier": "every model, every crash point (prefix length)", "why_tests_cant": "all byte positions of all files", "anchors": ["xjson.go:UnJSONMultiClass", "utils/json.go:UnJSONTree"]}
{"id": "C20", "title": "The model predicts what training computed", "statement": "For every training row, PredictSingle of the model returned by NewMultiClass equals the class probabilities the training loop ended with: each tree contributes learningRate*prediction to the class it was trained for.", "quantifier": "every data set, options, random draws, losses", "why_tests_cant": "training accumulates scores by class while prediction accumulates by position; agreement must hold for every early-stopping history", "anchors": ["xgb.go:NewMultiClass", "multiclass.go:PredictSingle"]}
{"id": "C21", "title": "Rounds() and Classes() report rounds and classes", "statement": "For a model returned by NewMultiClass, Classes() is the number of distinct labels in the training data and Rounds() the number of boosting rounds performed.", "quantifier": "every data set and options", "why_tests_cant": "universal over models", "anchors": ["multiclass.go:Rounds", "multiclass.go:Classes"]}
{"id": "C22", "title": "Training produces the requested rounds", "statement": "NewMultiClass with EarlyStop disabled and valid options returns an ensemble with O.Rounds rounds (xgboost rounds whose row sample has fewer than MinSample rows excepted), each with one tree per class; in particular the model can be used for prediction.", "quantifier": "every data set, options, random draws", "why_tests_cant": "depends on interplay of SubSample, MinSample and XGB for all option values", "anchors": ["xgb.go:NewMultiClass"]}
{"id": "C23", "title": "PredictSingleClass returns the first most probable class", "statement": "PredictSingleClass returns an index into ClassLabels whose probability is maximal, the smallest such index, and this is also the smallest index of maximal raw score.", "quantifier": "every model and row; exact arithmetic for the raw-score part, IEEE arithmetic for the probability part", "why_tests_cant": "universal over score vectors, with ties, overflow and NaN", "anchors": ["multiclass.go:PredictSingleClass", "xgb.go:ClassesFromProbs"]}
{"id": "C24", "title": "SoftMax returns a probability distribution that preserves order", "statement": "SoftMax(p, nil) has the length of p, all entries in (0,1], sum 1, preserves the order of p, and is unchanged when a constant is added to all scores; with a buffer of the same length the result does not depend on the buffer.", "quantifier": "every non-empty score vector; exact real arithmetic; overflow behaviour in IEEE arithmetic", "why_tests_cant": "real-valued universal statement", "anchors": ["utils/loss_acti.go:SoftMax", "utils/loss_acti.go:SoftMaxDense", "utils/loss_acti.go:activationDense"]}
{"id": "C25", "title": "Accuracy is the percentage of correctly labelled rows", "statement": "Accuracy(D) equals 100 times the fraction of rows whose predicted label equals the given label; it lies in [0,100] and is 100 exactly when all are right.", "quantifier": "every model and non-empty labelled data set; exact arithmetic, and IEEE arithmetic for fewer than 2^53 rows", "why_tests_cant": "universal over data sets", "anchors": ["multiclass.go:Accuracy"]}
{"id": "C26", "title": "SubSample returns valid distinct indexes", "statement": "SubSample(n, s) returns a strictly increasing list of indexes in [0,n), containing i exactly when the i-th random draw is at most s; for s >= 1 it contains all of them.", "quantifier": "every n, s and every sequence of random draws", "why_tests_cant": "randomised function: every draw sequence matters", "anchors": ["xgb.go:SubSample"]}
{"id": "C27", "title": "Early stopping stops a class for good and only for a reason", "statement": "With EarlyStop = e > 0, a class receives no tree after it has been stopped; it is stopped only when its loss is at most 1e-6 or its loss failed to decrease in e consecutive executed rounds; with EarlyStop <= 0 no class is ever stopped.", "quantifier": "every data set, options, loss function and draw sequence", "why_tests_cant": "history property over unbounded rounds", "anchors": ["xgb.go:NewMultiClass"]}
{"id": "C28", "title": "Options.Check accepts exactly the valid options", "statement": "Check() returns nil iff Rounds>0, LearningRate>0, 0<SubSample<=1, 0<ColSubSample<=1, Lambda>=0, MinChildWeight>=1, Gamma>=0, MaxDepth>=2 and MinSample>=1; DefaultXOptions passes.", "quantifier": "every option value, NaN included", "why_tests_cant": "NaN and boundary values", "anchors": ["options.go:Check", "options.go:DefaultXOptions"]}
{"id": "C29", "title": "Options.Equal is an equivalence and Clone returns an equal copy", "statement": "Equal is reflexive, symmetric and transitive, implies equality of every hyperparameter, and o.Equal(o.Clone()) holds with every field of the clone equal to the original's.", "quantifier": "all triples of options", "why_tests_cant": "laws over all values", "anchors": ["options.go:Equal", "options.go:Clone"]}
{"id": "C30", "title": "Gradients and Hessians are derivatives of the loss", "statement": "SQErrLoss.Gradients is the derivative with respect to the prediction of half the squared error, NegGradients its negative, Hessian the second derivative; for MSELoss the Hessian is p(1-p), positive for probabilities strictly between 0 and 1.", "quantifier": "every label/prediction vector; exact real arithmetic", "why_tests_cant": "calculus statement over all reals", "anchors": ["utils/loss_acti.go:SQErrLoss", "utils/loss_acti.go:MSELoss"]}
{"id": "C31", "title": "Loss is the mean squared error", "statement": "Loss(y, pred) equals the mean of (y-pred)^2, is non-negative, and is 0 exactly when the vectors are equal; it does not depend on the scratch matrix passed.", "quantifier": "every pair of non-empty equal-length vectors; exact arithmetic", "why_tests_cant": "universal", "anchors": ["utils/loss_acti.go:Loss"]}
{"id": "C32", "title": "Normalization divides by the sum", "statement": "Normalization(p, nil) of a vector with non-zero sum sums to 1 and is proportional to p; applying it twice gives the same as once.", "quantifier": "every vector with non-zero sum; exact arithmetic", "why_tests_cant": "universal", "anchors": ["utils/loss_acti.go:Normalization"]}
{"id": "C33", "title": "Cross-validation folds partition the data", "statement": "For the n and sampler returned by CrossValidationSamples on a data set of at least 4 rows: the n test sets are pairwise disjoint and together contain each row exactly once, each has at least 2 rows, every fold but the last has exactly tot/n rows, and in each call train and test together contain each row exactly once.", "quantifier": "every data set size, nfold and every sequence of random draws on which the rejection sampling terminates", "why_tests_cant": "random draws: every sequence matters", "anchors": ["utils/stat.go:CrossValidationSamples", "utils/stat.go:fillRemaining"]}
{"id": "C34", "title": "The number of folds is chosen sensibly and too-small data gives an error", "statement": "CrossValidationSamples uses nfold (5 if nfold<=0), reduced to the largest value leaving 2 rows per fold, reports an error when it reduced it, and returns n=0 with an error, never panicking, when fewer than 2 folds are possible.", "quantifier": "every data set size and nfold", "why_tests_cant": "boundary sizes", "anchors": ["utils/stat.go:CrossValidationSamples"]}
{"id": "C35", "title": "Fold sampling terminates", "statement": "CrossValidationSamples terminates on every sequence of random draws in which every row index keeps reappearing.", "quantifier": "every fair draw sequence, every size and fold number", "why_tests_cant": "liveness under randomness", "anchors": ["utils/stat.go:CrossValidationSamples"]}
{"id": "C36", "title": "Train and test sets keep rows, labels and keys together", "statement": "In the train and test sets returned by the sampler, the i-th label is the label of the i-th row in the original data set and Keys are the original Keys.", "quantifier": "every labelled data set, fold and call", "why_tests_cant": "universal over data", "anchors": ["utils/stat.go:fillDataBunch"]}
{"id": "C37", "title": "The sampler serves n pairs and then nil", "statement": "The sampler returned by CrossValidationSamples returns a train/test pair on each of its first n calls, with a different test fold each time, and nil,nil on every later call.", "quantifier": "every call history", "why_tests_cant": "history property", "anchors": ["utils/stat.go:CrossValidationSamples"]}
{"id": "C38", "title": "DenseCol and AddToCol act on the requested column and reject others", "statement": "DenseCol(D, k) returns the k-th column of D and AddToCol(D, s, k) adds s to the k-th column leaving all other entries alone; a k that is not a column of D makes them panic.", "quantifier": "every matrix, column index and vector", "why_tests_cant": "index arithmetic on a flat array over all shapes", "anchors": ["utils/math.go:DenseCol", "utils/math.go:AddToCol"]}
{"id": "C39", "title": "One-hot encoding is faithful", "statement": "OHELabels (OHEKeys for the keys) returns the distinct labels in order of first appearance without repetition, and a matrix whose i-th row has a single 1, in the column of the i-th label; the labels can be recovered from it.", "quantifier": "every non-empty label list", "why_tests_cant": "universal", "anchors": ["utils/libsvm.go:oneHotEncodeDense", "utils/libsvm.go:distinctElements"]}
{"id": "C40", "title": "Sampling and transposing are plain indexing", "statement": "SampleSlice/SampleMatrix return the selected entries in order and panic exactly when an index is out of range or more entries are requested than exist; TransposeFloats of a rectangular non-empty matrix swaps indices and is an involution.", "quantifier": "every matrix and index list", "why_tests_cant": "universal, with exact panic conditions", "anchors": ["utils/math.go:SampleSlice", "utils/math.go:SampleMatrix", "utils/math.go:TransposeFloats"]}
{"id": "C41", "title": "ArgSort returns the sorting permutation", "statement": "ArgSort(a) returns a permutation of 0..len(a)-1 and the values of a in that order, sorted ascending for NaN-free a; MemArgSort with buffers of the same length returns the same whatever the buffers held before.", "quantifier": "every slice, every correct sort, every buffer content", "why_tests_cant": "universal over data and over sort implementations", "anchors": ["utils/math.go:ArgSort", "utils/math.go:MemArgSort", "utils/math.go:idSorter", "utils/sorter.go:Slice"]}
{"id": "C42", "title": "libSVM text written by LibSVM() is read back", "statement": "ParseLibSVMFromReader applied to the text of D.LibSVM() returns the same labels, keys and rows (values rounded to 4 decimals).", "quantifier": "every non-empty rectangular labelled data set", "why_tests_cant": "round trip over all data sets", "anchors": ["utils/libsvm.go:LibSVM", "utils/libsvm.go:ParseLibSVMFromReader", "utils/libsvm.go:parseLibSVMLine"]}
{"id": "C43", "title": "CSV text written by CSV() is read back", "statement": "ParseCSVFromReader applied to the text of D.CSV() (with labels, header iff D has keys) returns the same labels, keys and rows (values rounded to 4 decimals).", "quantifier": "every non-empty rectangular labelled data set whose keys are plain words", "why_tests_cant": "round trip over all data sets", "anchors": ["utils/csv.go:CSV", "utils/csv.go:ParseCSVFromReader", "utils/csv.go:recordsToData"]}
{"id": "C44", "title": "Readers return an error, not a panic, on malformed text", "statement": "ParseLibSVMFromReader, ParseCSVFromReader and ReadNameMap never panic, whatever the text.", "quantifier": "every byte sequence", "why_tests_cant": "all texts", "anchors": ["utils/libsvm.go:parseLibSVMLine", "utils/csv.go:recordsToData", "confu/confu.go:ReadNameMap"]}
{"id": "C45", "title": "What parsed data contains", "statement": "When ParseLibSVMFromReader or ParseCSVFromReader succeeds, there is one row per complete text line (record) after the header, in order; with labels there are as many labels as rows, and each is the integer in the first column of its line; without labels all columns are values; the values are the numbers written in the line, the keys those of the header, and for CSV all rows have the same length. Both succeed exactly on the texts for which such a data set exists.", "quantifier": "every text", "why_tests_cant": "all texts", "anchors": ["utils/libsvm.go:ParseLibSVMFromReader", "utils/csv.go:ParseCSVFromReader"]}
{"id": "C46", "title": "The confusion matrix counts (actual, predicted) pairs", "statement": "Entry (i,j) of Matrix() is the number of rows whose actual label is Labels[i] and predicted label is Labels[j]; row sums are the label frequencies; the total is the number of rows whose label is known to the model.", "quantifier": "every model and labelled data set", "why_tests_cant": "universal counting statement", "anchors": ["confu/confu.go:Matrix", "confu/confu.go:MCConfusions"]}
{"id": "C47", "title": "Confusion matrix and Accuracy agree", "statement": "The trace of Matrix() is the number of rows Accuracy counts as right, i.e. Accuracy(D) = 100*trace/len(D.Data).", "quantifier": "every model and labelled data set", "why_tests_cant": "two independent code paths", "anchors": ["confu/confu.go:Matrix", "multiclass.go:Accuracy"]}
{"id": "C48", "title": "TopNForLabelM returns the N most frequent predictions", "statement": "TopNForLabelM(N, M) returns min(N, #labels) distinct class indexes and their counts, the counts in non-increasing order and not smaller than any count left out; nil,nil iff M is not a label of the model.", "quantifier": "every confusion table, N >= 0, M, every correct sort", "why_tests_cant": "universal with ties", "anchors": ["confu/confu.go:TopNForLabelM", "confu/confu.go:memIntSort"]}
{"id": "C49", "title": "A returned TopN result stays valid", "statement": "The slices returned by TopNForLabelM are not changed by later calls on the same Confusions value.", "quantifier": "every call history", "why_tests_cant": "aliasing over histories", "anchors": ["confu/confu.go:TopNForLabelM", "confu/confu.go:TopNPerLabel"]}
{"id": "C50", "title": "ReadNameMap reads every entry", "statement": "ReadNameMap returns a map with an entry for every line of the file, later lines overriding earlier ones, and reports read errors.", "quantifier": "every well-formed names file", "why_tests_cant": "all texts", "anchors": ["confu/confu.go:ReadNameMap", "confu/confu.go:MakeSimpleNameMap"]}
{"id": "C51", "title": "Grid returns the best grid point", "statement": "Grid returns the largest cross-validation accuracy over all grid points and options that attained it.", "quantifier": "every grid, NCPUs >= 1, every accuracy assignment", "why_tests_cant": "the batch arithmetic must work for every grid size modulo NCPUs", "anchors": ["cv/cv.go:Grid", "cv/cv.go:rescueConcValues"]}
{"id": "C52", "title": "Grid is schedule independent and does not deadlock", "statement": "With NCPUs workers, every interleaving of the worker goroutines and the collector of one batch ends with all results collected and the same best accuracy and options.", "quantifier": "every number of workers, result assignment and schedule", "why_tests_cant": "schedules", "anchors": ["cv/cv.go:Grid", "cv/cv.go:rescueConcValues", "cv/cv.go:MultiClassCrossValidation"]}
{"id": "C53", "title": "Grid visits exactly the requested points", "statement": "Each grid loop visits init, init+step, init+2 step, ... up to and including the last value not above final, and every option set tried lies within the bounds.", "quantifier": "every initial, final, step with step > 0; exact arithmetic and IEEE binary64", "why_tests_cant": "accumulated rounding decides whether an endpoint is visited", "anchors": ["cv/cv.go:Grid", "cv/cv.go:GridOptions"]}
{"id": "C54", "title": "Cross-validation accuracy is the mean over folds", "statement": "MultiClassCrossValidation returns the mean fold accuracy, in [0,100], and sends the same value on the channel when concurrent; it sends exactly one error, one accuracy and one options value in that order.", "quantifier": "every data set, fold number, options and draw sequence", "why_tests_cant": "universal, includes skipped folds", "anchors": ["cv/cv.go:MultiClassCrossValidation"]}
{"id": "C55", "title": "A gradient step never leaves the search box", "statement": "If the starting options are inside the GridOptions bounds, the options returned by GradStep are inside them too.", "quantifier": "every starting point, accuracy oracle, step, delta and every schedule of the six parameter goroutines relative to the collector", "why_tests_cant": "schedules and arbitrary accuracies", "anchors": ["cv/grad.go:GradStep", "cv/grad.go:ParamaterGradStep", "cv/grad.go:checkAgainstOptions"]}
{"id": "C56", "title": "Gradient search accuracies increase and end with the best", "statement": "The accuracies slice returned by GradientGrid and HybridGradientGrid is strictly increasing and its last element is the returned best accuracy (which is 0 with nil options if it is empty).", "quantifier": "every accuracy oracle, random stream and number of steps", "why_tests_cant": "history property", "anchors": ["cv/grad.go:GradientGrid", "cv/hybrid.go:HybridGradientGrid"]}
{"id": "C57", "title": "Gradient search returns the options that achieved the best accuracy", "statement": "The options returned by GradientGrid are those for which the returned best accuracy was measured.", "quantifier": "every accuracy oracle and random stream", "why_tests_cant": "aliasing: options objects are updated in place after being recorded", "anchors": ["cv/grad.go:GradientGrid", "cv/grad.go:GradStep", "cv/grad.go:fuzzOptions"]}
{"id": "C58", "title": "Gradient search stays inside the search box", "statement": "The options returned by GradientGrid lie within the given GridOptions bounds.", "quantifier": "every accuracy oracle and random stream", "why_tests_cant": "random perturbations", "anchors": ["cv/grad.go:GradientGrid", "cv/grad.go:fuzzOptions"]}
{"id": "C59", "title": "Each parameter goroutine answers once and ends", "statement": "ParamaterGradStep sends exactly one value on its output channel and returns, so GradStep leaves no blocked goroutine behind.", "quantifier": "every starting point and accuracy oracle", "why_tests_cant": "schedules and error paths", "anchors": ["cv/grad.go:ParamaterGradStep", "cv/grad.go:GradStep"]}
{"id": "C60", "title": "Gradient steps can move the parameters of regular boosting too", "statement": "For GridOptions with XGB=false, as for XGB=true, a gradient step with a non-zero derivative that stays in bounds changes the parameter.", "quantifier": "every starting point produced by GradientGrid", "why_tests_cant": "needs all accuracies", "anchors": ["cv/grad.go:checkAgainstOptions", "options.go:DefaultGOptions"]}
{"id": "C61", "title": "Central differences estimate the derivative", "statement": "With Central set, the parameter update is proportional to (acc(x+h)-acc(x-h))/(2h), h = DeltaFraction*x.", "quantifier": "every pair of accuracies and parameter value", "why_tests_cant": "universal formula", "anchors": ["cv/grad.go:ParamaterGradStep"]}
{"id": "C62", "title": "Midpoints are inside the bounds", "statement": "The starting options of the gradient searches (midpoints of the ranges) lie within the bounds whenever each lower bound is at most its upper bound.", "quantifier": "all bounds; exact arithmetic for floats, truncating integer division for ints", "why_tests_cant": "universal, sign of integer division", "anchors": ["cv/grad.go:setOptionsToMid", "cv/grad.go:setSomeOptionsToMid"]}
{"id": "C63", "title": "fuzz perturbs by at most the given fraction", "statement": "fuzz(f, q) lies within |q*f| of f, and fuzzOptions changes only the seven listed hyperparameters. Every fuzzing of a search uses random numbers of its own.", "quantifier": "all values and draws; exact arithmetic", "why_tests_cant": "random draws", "anchors": ["cv/grad.go:fuzz", "cv/grad.go:fuzzOptions"]}
{"id": "C64", "title": "LogOddsFromProbs returns log odds", "statement": "For a matrix of probabilities, entry (i,j) of LogOddsFromProbs is log(p/(s-p)) with s the row sum.", "quantifier": "all probability matrices; exact real arithmetic", "why_tests_cant": "universal formula", "anchors": ["xgb.go:LogOddsFromProbs"]}
{"id": "C65", "title": "Reusing tree options on another data set", "statement": "NewTree(X, o) with o.Indexes not set by the caller trains on all rows of X, also when o has been used for another data set before.", "quantifier": "every pair of data sets", "why_tests_cant": "history property: NewTree writes to the caller's options", "anchors": ["tree.go:NewTree"]}
{"id": "C66", "title": "Printing a tree never panics", "statement": "Tree.Print succeeds for every tree and every list of feature names, falling back to the feature index when no name is available.", "quantifier": "every tree and name list", "why_tests_cant": "universal", "anchors": ["tree.go:Print", "tree.go:feature"]}
{"id": "C67", "title": "PrintTopN reports every label that occurs with its most frequent predictions", "statement": "PrintTopN(N, names) with N >= 1 returns a header and, for each label of the model that occurs in the data, in the order of Labels, one line with the name of the label and name:count for its N most frequent predictions, without those of count 0; a smaller N panics.", "quantifier": "every model, data set, N, name map, history of calls and correct sort", "why_tests_cant": "universal with ties and aliasing", "anchors": ["confu/confu.go:PrintTopN", "confu/confu.go:TopNPerLabel"]}
{"id": "C68", "title": "GridOptions.Clone copies every option", "statement": "Clone returns grid options with the value of the original in every field, so a search with the clone behaves as one with the original.", "quantifier": "all grid options", "why_tests_cant": "a test compares the fields its author remembered, for some values", "anchors": ["cv/cv.go:Clone"]}
{"id": "C69", "title": "Gradient searches compare options with the number of folds asked for", "statement": "The accuracies that GradientGrid and HybridGradientGrid(data, nfold, options) compare, record and return come from nfold-fold cross-validations.", "quantifier": "every data set, nfold, options, random stream", "why_tests_cant": "needs all accuracies for all numbers of folds", "anchors": ["cv/grad.go:GradientGrid", "cv/hybrid.go:HybridGradientGrid"]}
{"id": "C70", "title": "Each tree is fitted to the loss at the scores of the trees before it", "statement": "In a trained model, the tree of class k in round r is the tree NewTree grows for the 0/1 indicator of class k and the softmax probabilities of the training rows under the scores of the trees that precede it (all rounds before r, and the classes before k in round r): xgboost fits the gradients and Hessians of the configured loss at those probabilities on the rows and columns sampled in that round; regular boosting fits the negative gradients, and then replaces each leaf value by the Newton step, the sum of the negative gradients over the sum of the Hessians of its samples.", "quantifier": "every data set, options, random draws and model returned by NewMultiClass in which every round has a tree for every class; every round, class and tree", "why_tests_cant": "relates every tree to the scores of all earlier ones, for all data; a test sees accuracies of a few runs", "anchors": ["xgb.go:NewMultiClass", "utils/loss_acti.go", "tree.go:NewTree"]}
{"id": "C71", "title": "A trained model predicts probabilities", "statement": "For a model returned by NewMultiClass on data of numbers with at least two labels, PredictSingle gives, for every row of numbers of the training width, one number per class label, all strictly between 0 and 1, that sum to 1. No NaN or infinity ever gets into the trees or scores.", "quantifier": "every data set of real numbers, options with real parameters (non-negative Lambda), draws and returned model; every row", "why_tests_cant": "all data, options and rows; divisions by sums of Hessians fail only in particular states", "anchors": ["xgb.go:NewMultiClass", "multiclass.go:PredictSingle", "xgb.go:updateLeaves"]}
{"id": "C72", "title": "A trained model carries the labels and options it was trained with", "statement": "A model returned by NewMultiClass has each label of the data exactly once, in order of first appearance, the learning rate, base score and booster kind of its options and the softmax as transformation; its feature importances are of the kind of its booster.", "quantifier": "every data set, options, draws and returned model", "why_tests_cant": "all data sets and options", "anchors": ["xgb.go:NewMultiClass", "multiclass.go:FeatureImportance"]}
{"id": "C73", "title": "Row order, sorting and units do not matter", "statement": "NewTree and NewMultiClass do not depend on the sorting routine's treatment of ties; NewTree does not depend on the order of the training rows; expressing each feature in other units (a positive factor and an offset) changes no prediction and no feature importance; any increasing change of a feature changes only the thresholds, so every training row keeps its prediction.", "quantifier": "every data set of finite features, targets, options, draws, sorting routine, permutation, change of units or increasing map, and row", "why_tests_cant": "relates two runs over all data sets, permutations and maps", "anchors": ["tree.go:NewTree", "tree.go:findBetterSplit", "utils/sorter.go:Slice", "xgb.go:NewMultiClass"]}
{"id": "C74", "title": "The base score does not matter", "statement": "Two trainings that differ only in BaseScore give the same trees, and their models predict the same probabilities and classes for every row, because the same number is added to the scores of all classes.", "quantifier": "every data set, options, draws, pair of finite base scores and row", "why_tests_cant": "quantifies over pairs of runs", "anchors": ["xgb.go:NewMultiClass", "multiclass.go:PredictSingle", "options.go:BaseScore"]}
{"id": "C75", "title": "Training is reproducible given its random draws", "statement": "NewMultiClass draws one random number per row (when rows are subsampled) and one per column (when columns are subsampled) in each round and its result depends on nothing else: with the same draws the model is the same, and without subsampling, or with regular boosting, the model does not depend on the random source at all.", "quantifier": "every data set, options and pair of random streams that agree on the draws used", "why_tests_cant": "quantifies over pairs of runs and all streams", "anchors": ["xgb.go:NewMultiClass", "xgb.go:SubSample"]}
{"id": "C76", "title": "Class labels are only names", "statement": "Training on data whose labels are renamed by a one-to-one map gives the same model with its labels renamed: the same trees, probabilities and class indexes, and the same accuracy on renamed data.", "quantifier": "every data set, options, draws and map that is one-to-one on the labels", "why_tests_cant": "quantifies over pairs of runs and all renamings", "anchors": ["xgb.go:NewMultiClass", "utils/libsvm.go:DataBunch", "multiclass.go:Accuracy"]}
{"id": "C77", "title": "More rounds only add trees", "statement": "Training with fewer rounds on the same data, options and draws gives a model whose rounds are the first rounds of the model trained with more; nothing else differs.", "quantifier": "every data set, options, draws and R at most the number of rounds", "why_tests_cant": "quantifies over pairs of runs", "anchors": ["xgb.go:NewMultiClass"]}
{"id": "C78", "title": "Verbose does not change the model", "statement": "NewMultiClass returns the same model with Verbose set and unset.", "quantifier": "every data set, options and draws", "why_tests_cant": "quantifies over pairs of runs", "anchors": ["xgb.go:NewMultiClass", "options.go:Verbose"]}
{"id": "C79", "title": "A trained model predicts every row of the training width", "statement": "PredictSingle, PredictSingleClass and Accuracy of a model returned by NewMultiClass return, without panicking, on rows as long as the training rows; the prediction has one entry per class label.", "quantifier": "every data set, options, draws and returned model; every row of the training width", "why_tests_cant": "all data, options and rows", "anchors": ["xgb.go:NewMultiClass", "multiclass.go:PredictSingle", "multiclass.go:PredictSingleClass", "multiclass.go:Accuracy"]}
{"id": "C80", "title": "A smaller MaxDepth only cuts the tree", "statement": "If NewTree returns a tree, then with a smaller MaxDepth and everything else equal it returns that tree cut at that depth: no split above it changes, and the prediction for any row is the value the row meets at that depth of the deeper tree.", "quantifier": "every data set, options, smaller depth, sorting routine and row, in any arithmetic", "why_tests_cant": "relates two runs over all data and depths", "anchors": ["tree.go:NewTree"]}
{"id": "C81", "title": "Deeper trees fit the training rows no worse", "statement": "The squared error of a regular tree's predictions for its training rows, and the regularised objective of an xgboost tree, do not grow when MaxDepth grows.", "quantifier": "every data set, finite targets, options and pair of depths, in exact arithmetic", "why_tests_cant": "a comparison of two runs for all data; tests see some data sets", "anchors": ["tree.go:NewTree", "tree.go:findBetterSplit", "tree.go:Predict"]}
{"id": "C82", "title": "Gamma only prunes", "statement": "With a larger Gamma and everything else equal NewTree returns the same xgboost tree with every split undone whose gain is not above half the increase of Gamma (with everything below it).", "quantifier": "every data set, gradients, hessians, options and pair of Gammas", "why_tests_cant": "relates two runs over all data and all values of Gamma", "anchors": ["tree.go:NewTree", "tree.go:findBetterSplit"]}
{"id": "C83", "title": "Columns that carry nothing change nothing", "statement": "Appending a last column that is constant, or a copy of another column, to the training data changes no split, no prediction (whatever the additional entry of the row) and no feature importance, for NewTree and, without column subsampling, for NewMultiClass.", "quantifier": "every rectangular data set, additional column of that kind (not NaN), options, targets, draws and row, in any arithmetic with the order laws of IEEE 754", "why_tests_cant": "relates two runs over all data sets; a scan that also considers cuts between equal values would pass tests on particular data", "anchors": ["tree.go:NewTree", "tree.go:findBetterSplit", "xgb.go:NewMultiClass", "multiclass.go:PredictSingle"]}
{"id": "C84", "title": "Units of the targets do not matter", "statement": "Multiplying the targets of a regular tree by a nonzero factor and adding a constant changes no split and maps every prediction the same way; multiplying the gradients by a nonzero a, and the Hessians and Lambda by a positive c, and Gamma by a²/c changes no split of an xgboost tree and multiplies every prediction by a/c.", "quantifier": "every data set, options, targets, factors and row", "why_tests_cant": "relates two runs over all data and all factors", "anchors": ["tree.go:NewTree", "tree.go:PredictSingle"]}
{"id": "C85", "title": "Saving a loaded model again", "statement": "A model loaded with UnJSONMultiClass can be saved again with JSONMultiClass and gives the same file; a model can be saved and loaded any number of times without changing its predictions.", "quantifier": "every model that can be saved, every row, any number of times", "why_tests_cant": "any number of repetitions, for all models", "anchors": ["xjson.go:JSONMultiClass", "xjson.go:UnJSONMultiClass"]}
{"id": "C86", "title": "Features that are not listed as important do not matter", "statement": "Two rows that agree on every feature listed by FeatureImportance get the same prediction (from a tree), and the same probabilities and class (from a model).", "quantifier": "every tree and model, however obtained, and every pair of rows, in any arithmetic", "why_tests_cant": "for all models and pairs of rows; a report that drops one feature would go unnoticed on most data", "anchors": ["multiclass.go:FeatureImportance", "tree.go:FeatureImportance", "multiclass.go:PredictSingle", "multiclass.go:PredictSingleClass"]}
{"id": "C87", "title": "Early stopping only leaves out", "statement": "A model trained with EarlyStop has as many rounds as the one trained without it and the same trees in every round before the first in which a class was left out; if no class was left out of any round it is the same model.", "quantifier": "every data set, options, random draws and sorting routine, in any arithmetic", "why_tests_cant": "relates two training runs for all data and options", "anchors": ["xgb.go:NewMultiClass"]}
{"id": "C88", "title": "The printed tree tells what Predict does", "statement": "The text of Print can be read back as a set of nested rules, and following the rules on a row leads to the value that Predict gives for that row.", "quantifier": "every tree, indentation, list of feature names and row", "why_tests_cant": "tests compare a few printed lines; the rows that show the difference lie exactly at a threshold, or within its rounding", "anchors": ["tree.go:Print", "tree.go:PredictSingle", "tree.go:Predict"]}
{"id": "C89", "title": "Searches use the XGB and EarlyStop asked for", "statement": "The options returned by Grid, GradientGrid and HybridGradientGrid, and those of every model they measure, have the XGB and EarlyStop of the GridOptions; those returned by Grid are those of a point of the grid (up to raising MinChildWeight to 1).", "quantifier": "every search, data set, outcomes of cross-validations, schedules and random draws", "why_tests_cant": "early stopping only changes some models; a search with another value still returns plausible results", "anchors": ["cv/cv.go:Grid", "cv/grad.go:GradientGrid", "cv/hybrid.go:HybridGradientGrid", "options.go:Clone"]}
{"id": "C90", "title": "Options that do not apply have no effect", "statement": "With XGB off, the trained model does not depend on Lambda, Gamma, SubSample, ColSubSample or TreeMethod; with XGB on it does not depend on TreeMethod.", "quantifier": "every data set, options, values of those options, random draws and sorting routine, in any arithmetic", "why_tests_cant": "relates the training runs for all values of five options and all data", "anchors": ["xgb.go:NewMultiClass", "tree.go:NewTree", "options.go:Check"]}
{"id": "C91", "title": "WriteBest leaves a file with the best model", "statement": "With WriteBest, after Grid, GradientGrid or HybridGradientGrid the file named after the returned accuracy holds the model trained on all the data with the returned options, and reading that file gives that model; without WriteBest no file is written; WriteBest does not change what is returned.", "quantifier": "every search, outcomes of the cross-validations, data set, random draws and previous contents of the directory", "why_tests_cant": "depends on the order in which accuracies arrive and on every earlier write", "anchors": ["cv/cv.go:Grid", "cv/cv.go:writeBest", "cv/cv.go:rescueConcValues", "cv/grad.go:GradientGrid", "cv/hybrid.go:HybridGradientGrid"]}
{"id": "C92", "title": "What the String methods show", "statement": "The text of a feature importance has a line per feature, most important first, with its rank, index and score; the text of a data set has the keys and a line per row with its label (-1 without labels) and its values to four decimals; two options with equal texts have the same kind, Rounds and MaxDepth, and to three decimals the same LearningRate and MinChildWeight (for xgboost also SubSample, BaseScore, Gamma, Lambda and ColSubSample). The text of a matrix has a line per row whose words, without the brackets, are the entries of the row (a matrix without rows panics); two JSON nodes with equal texts agree in everything but the split feature, to three decimals.", "quantifier": "every feature importance, data set, matrix, pair of options and pair of nodes", "why_tests_cant": "the texts are read by people and are not compared in tests; all data sets and options", "anchors": ["tree.go:Feats.String", "options.go:Options.String", "utils/libsvm.go:DataBunch.String", "utils/math.go:PrintDenseMatrix", "utils/json.go:JSONNode.String"]}
{"id": "C93", "title": "In float64 the chosen split is nearly the best one", "statement": "With float64 arithmetic, every split of a tree is admissible, its recorded score is the exact score of that split up to an explicit rounding bound (regular: 2^-47*n*A^2+2^-1071 with n samples and A the sum of the magnitudes of their targets; xgboost: 2^-46*n*(1+H/m)*A^2/m+2^-52*|Gamma|+2^-1072*(1+1/m) with H the sum of the hessians and m a lower bound of hessian+Lambda), and no admissible split on a usable feature is better by more than twice that bound; a leaf above MaxDepth has no admissible split (regular) or none with an exact gain above the bound (xgboost).", "quantifier": "every finite float64 data matrix up to 2^1022 without neighbouring values in a feature, every tree and node; up to 2^50 samples and no extreme magnitudes", "why_tests_cant": "rounding errors depend on all values and on the order of the running sums; a test sees a few data sets, on which the errors are invisible", "anchors": ["tree.go:findBetterSplit", "tree.go:maybeInsertChildNode"]}
{"id": "C94", "title": "In float64 the node values are nearly the optimal ones", "statement": "With float64 arithmetic, the value of every node of a regular tree is the exact mean of the targets of its samples up to 2^-51*A+2^-1075 (A the sum of their magnitudes), and the value of every node of an xgboost tree is -G/(H+Lambda) up to 2^-49*n*(1+H/m)*A/m+2^-1075.", "quantifier": "every finite float64 data matrix up to 2^1022 without neighbouring values in a feature, every tree and node; up to 2^50 samples and no extreme magnitudes", "why_tests_cant": "a bound for all data and all orders of magnitude", "anchors": ["tree.go:NewTree"]}
{"id": "C95", "title": "The order of the training rows does not change the model", "statement": "Training on the same labelled rows in another order gives a model that predicts the same probability for every label and every row and has the same feature importances, if rows are not subsampled and arithmetic is exact.", "quantifier": "every data set, every permutation of its rows, both kinds of boosting, both losses, every option without row subsampling", "why_tests_cant": "n! orders of every data set; most permutations of small data give the same model, and the classes are trained one after the other in the order in which the labels are met", "anchors": ["xgb.go:NewMultiClass", "utils/libsvm.go:distinctElements"]}
{"id": "C96", "title": "In float64 the predicted probabilities are nearly the mathematical ones", "statement": "In float64, as long as no score of a row is beyond ±700, SoftMax and PredictSingle return numbers between 0 and 1 that differ from the mathematical softmax by a relative error of a few units in the last place per class and sum to nearly 1; larger scores do not get smaller probabilities, and the predicted class is one with the largest score, up to 2^-49.", "quantifier": "every list of up to 1024 scores between -700 and 700, every model with such scores, every exponential function accurate to one unit in the last place", "why_tests_cant": "rounding errors of all score vectors; tests compare with a tolerance that is not derived from anything", "anchors": ["utils/loss_acti.go:SoftMax", "multiclass.go:PredictSingle", "multiclass.go:PredictSingleClass"]}
{"id": "C97", "title": "In float64 a model predicts what its trees say", "statement": "In float64 the score of a class is the base score plus the learning rate times the sum of the predictions of the trees of the class, up to an explicit rounding bound, and the predicted probabilities are those of the exact scores up to an explicit bound.", "quantifier": "every model with finite leaf values, learning rate and base score, every row, up to 1024 classes and 2^50 rounds", "why_tests_cant": "the error of a sum over rounds depends on all values; a test shows it for one model", "anchors": ["multiclass.go:PredictSingle"]}
{"id": "C98", "title": "In float64 losses, gradients, Hessians and Normalization are nearly the mathematical values", "statement": "In float64 Loss is the mean squared error up to an explicit relative bound and never negative, the gradients are the differences up to half a unit in the last place with the right sign, the Hessian of MSELoss is p(1-p) up to three half units and positive exactly for 0 < p < 1, and Normalization returns numbers between 0 and 1 that are the quotients by the sum up to an explicit bound.", "quantifier": "all vectors of up to 2^40 float64 numbers up to 2^450 in size (loss, gradients); all probabilities (Hessian); all non-negative vectors with a positive sum that does not overflow (Normalization)", "why_tests_cant": "rounding, cancellation and underflow for all floats", "anchors": ["utils/loss_acti.go:SQErrLoss", "utils/loss_acti.go:MSELoss", "utils/loss_acti.go:Normalization"]}
{"id": "C99", "title": "In float64 training with the default loss gives probabilities, never NaN or overflow", "statement": "If training in float64 with SQErrLoss (or xgboost with MSELoss and a positive Lambda that is large enough for the number of rows) returns a model, then no score of any row overflows and PredictSingle returns numbers between 0 and 1 that sum to 1 up to a few units in the last place per class. With DefaultXOptions this holds for all data.", "quantifier": "all data sets (NaN and infinite feature values included) of up to 2^53 rows and 1024 classes, all draws of the random numbers, all rows to predict, all options with |BaseScore| + Rounds*|LearningRate| at most about 700", "why_tests_cant": "a NaN or an overflow appears only for particular data, draws and options", "anchors": ["xgb.go:NewMultiClass", "multiclass.go:PredictSingle", "options.go:DefaultXOptions", "tree.go:NewTree"]}
{"id": "C100", "title": "More rounds fit the training data better", "statement": "With exact arithmetic, a learning rate that is not too large (below 8 with SQErrLoss; with xgboost and either loss, LearningRate times the number of rows below 8*Lambda) and no row subsampling, a model trained with more rounds from the same random numbers has a strictly lower logarithmic loss on its training data than one trained with fewer rounds, unless both predict the same probabilities for every training row. In particular any model with a round is at least as good as predicting the same probability for all classes.", "quantifier": "all data sets of finite numbers, all labels, all depths, all draws, all pairs of numbers of rounds; exact real arithmetic", "why_tests_cant": "a test sees the loss of a few fits on a few data sets; that every round of every fit lowers it is a statement about all of them", "anchors": ["xgb.go:NewMultiClass", "multiclass.go:PredictSingle", "tree.go:NewTree"]}
{"id": "C101", "title": "Deep regular trees learn consistent training data", "statement": "With exact arithmetic, regular boosting with a positive learning rate, a MinChildWeight below 2, MaxDepth at least the number of rows minus one and no early stopping learns its training data as soon as there is one round: if rows with the same features always have the same label, PredictSingleClass returns the label of every training row and Accuracy on the training data is 100. With MSELoss and R rounds the probability of the right label is at least 1/(1+(m-1)exp(-2*LearningRate*R)) with m classes. The xgboost variant has no such guarantee: it does not learn exclusive or.", "quantifier": "all consistent data sets of finite numbers with rows of one length, all labels, all base scores, all positive learning rates and numbers of rounds", "why_tests_cant": "a test fits a few data sets; that every consistent data set is learned by heart needs an argument about every split of every tree", "anchors": ["xgb.go:NewMultiClass", "multiclass.go:Accuracy", "tree.go:NewTree"]}
{"id": "C102", "title": "The order of the columns does not matter", "statement": "Training on the same data with the columns in another order gives the same model up to the numbering of the columns: every row, with its entries reordered in the same way, gets the same probabilities and class, and every column gets the same importance. The same holds for a single tree.", "quantifier": "all rectangular data sets, all permutations of the columns, all rows, all options without column subsampling and early stopping, with or without row subsampling", "why_tests_cant": "a test compares a few orders on a few data sets; the column search keeps the first of equally good splits, so whether the order matters depends on ties in every node of every tree", "anchors": ["xgb.go:NewMultiClass", "tree.go:NewTree", "tree.go:findBetterSplit"]}
{"id": "C103", "title": "xgboost learns two classes that one column separates", "statement": "If there are two labels and one column is at most some number in the rows of one label and more in the rows of the other, an xgboost model with at least one round, without subsampling, early stopping and Gamma, predicts the label of every training row, and Accuracy on the training data is 100. Every tree of the model has exactly two leaves, one per label, whatever the maximum depth.", "quantifier": "all such data sets whose labels have at least MinChildWeight rows each, all numbers of columns, all positive learning rates, all Lambda >= 0, all depths >= 1, all base scores, both losses, all numbers of rounds; exact real arithmetic", "why_tests_cant": "a test trains on a few data sets; that no other column or threshold is ever preferred, with any class sizes, any Lambda and in any round, needs an argument about all gains", "anchors": ["xgb.go:NewMultiClass", "tree.go:NewTree", "tree.go:findBetterSplit"]}
{"id": "C104", "title": "The options bound the size of trees and models", "statement": "A tree has at most 2^MaxDepth leaves, and Branches() is twice the number of leaves minus one. A tree with at least one split on n training rows has at most n / max(1, MinChildWeight) leaves. A trained model has at most Rounds rounds, at most one tree for each class in each round, and at most Rounds * classes * (2^(MaxDepth+1) - 1) nodes.", "quantifier": "all training sets, options, samplings and both kinds of boosting", "why_tests_cant": "a test measures the trees of a few data sets; the memory a model can take must be bounded for all data", "anchors": ["tree.go:NewTree", "tree.go:Branches", "xgb.go:NewMultiClass"]}
{"id": "C105", "title": "Trees do not extrapolate", "statement": "Whatever row is predicted, even one far from the training data or with infinities or NaN, a regular tree answers a number between the smallest and the largest target of its training rows, and an xgboost tree a number between the smallest and the largest of 0 and the steps -g/h of its training rows.", "quantifier": "all training sets, targets, gradients, positive hessians, Lambda >= 0, options and all rows predicted", "why_tests_cant": "a test predicts a few rows; the claim is about all rows, including those unlike any training row", "anchors": ["tree.go:NewTree", "tree.go:PredictSingle"]}
{"id": "C106", "title": "Rounds and learning rate limit the confidence of a model", "statement": "With the squared error loss, no tree of a trained model predicts more than 1 in magnitude, and the probability a model of R rounds and learning rate lr gives to any of its m classes is between 1/(1+(m-1)exp(2|lr|R)) and 1/(1+(m-1)exp(-2|lr|R)), for every row.", "quantifier": "all training sets, both kinds of boosting, all depths, samplings, Lambda >= 0, Gamma, early stopping, and all rows predicted; exact real arithmetic", "why_tests_cant": "a test sees the probabilities of a few rows under a few models; the bound is about all of them", "anchors": ["xgb.go:NewMultiClass", "multiclass.go:PredictSingle", "tree.go:NewTree", "utils/loss_acti.go:SQErrLoss"]}
{"id": "C107", "title": "Gradient searches end, and end early when stuck or failing", "statement": "GradientGrid and HybridGradientGrid make at most NSteps gradient steps and NSteps+1 comparing cross-validations for each starting point, and compare every starting point unless they return an error. They return an error exactly if a comparing cross-validation failed, and that one is the last they make. A starting point at which no gradient step changes the options is left after three steps.", "quantifier": "all options, ranges, accuracies and errors of the cross-validations, results of the gradient steps and random numbers", "why_tests_cant": "the work depends on measured accuracies and random perturbations; a test follows one run", "anchors": ["cv/grad.go:GradientGrid", "cv/hybrid.go:HybridGradientGrid"]}
{"id": "C108", "title": "Confident predictions and errors", "statement": "The class to which a trained model gives a probability above 1/2 is the class PredictSingleClass returns. On any labelled data set the share of rows that the model labels wrongly is at most the mean logarithmic loss of its probabilities divided by log 2, so Accuracy is at least 100 (1 - loss / (n log 2)).", "quantifier": "all trained models, all rows, all labelled data sets with known labels; exact real arithmetic", "why_tests_cant": "a test compares the two measures on a few data sets", "anchors": ["multiclass.go:PredictSingle", "multiclass.go:PredictSingleClass", "multiclass.go:Accuracy"]}
{"id": "C109", "title": "GradStep with a channel", "statement": "Given a channel, GradStep leaves the options it is given (and every other options object) unchanged and sends on the channel, and returns, a new object whose parameters are those that the call without a channel would have put into the options. It always sends an answer, and the answer keeps the settings that the search does not touch, such as EarlyStop.", "quantifier": "all options, ranges, results of the cross-validations and interleavings of the goroutines", "why_tests_cant": "the package itself never passes a channel, and a test sees one interleaving and one outcome of the cross-validations", "anchors": ["cv/grad.go:GradStep", "options.go:Clone"]}
{"id": "C110", "title": "SubSample picks every row independently with the requested probability", "statement": "SubSample(n, s) picks each of the n row numbers with probability s (up to 2^-53 with the random numbers of the standard library), independently of the others: it returns the rows l with probability s^|l| (1-s)^(n-|l|), and n s rows on average. When an xgboost model is trained with row subsampling, its mean number of rounds is Rounds times the probability that at least MinSample rows are picked.", "quantifier": "all sizes n, fractions s of [0,1], training tables and options", "why_tests_cant": "the claim is about the distribution of a random result; a test sees a finite sample of it and can only compare frequencies", "anchors": ["xgb.go:SubSample", "xgb.go:NewMultiClass"]}
{"id": "C111", "title": "The cross-validation folds are drawn fairly", "statement": "With independent uniform random numbers CrossValidationSamples returns with probability 1, and every way of distributing the rows over folds of the given sizes is equally likely. In particular each row is in the k-th test set with probability (size of fold k)/(number of rows), whatever its position in the table.", "quantifier": "all tables of at least 4 different rows, all numbers of folds but 1, all probability spaces with independent uniform draws", "why_tests_cant": "the claim is about the distribution of a random result, over unbounded sequences of draws; a test sees a finite sample", "anchors": ["utils/stat.go:CrossValidationSamples", "utils/stat.go:fillRemaining"]}
{"id": "C112", "title": "With many rounds the predicted probabilities are calibrated on the training data", "statement": "Over the reals, with squared error, LearningRate in (0,8), no early stopping and all rows in every round: as Rounds grows, the sum over the training rows of the probability predicted for a label tends to the number of rows with that label. If also all columns are used and trees may split, the same holds on each side of every allowed threshold of every column, up to sqrt((n+Lambda)*Gamma) with xgboost and exactly without. Within the first R models one is within an explicit bound that tends to 0 like 1/sqrt(R).", "quantifier": "all finite tables, labels, generators, base scores, Lambda, Gamma >= 0, MinChildWeight, learning rates in (0,8), and all sequences of numbers of rounds", "why_tests_cant": "a limit over the number of rounds, for all data sets; a test trains finitely many models on finitely many tables", "anchors": ["xgb.go:NewMultiClass", "tree.go:NewTree", "utils/loss_acti.go:SQErrLoss"]}
{"id": "C113", "title": "With enough rounds everything that additive scores can separate is learned", "statement": "Over the reals, with squared error, LearningRate in (0,8), MinChildWeight below 2, trees that may split, no subsampling, no early stopping and Gamma 0 (or regular boosting): if scores that add up one function per column are greatest for the right label in every training row, then all models with enough rounds predict the label of every training row, with probabilities as close to 1 as wanted, and have Accuracy 100 on the training data. The same holds if Gamma is small compared to the margin, and an explicit number of rounds suffices. This covers any number of classes and columns (exclusive or, which is not of this kind, is not learned, see C101).", "quantifier": "all finite rectangular tables and labels, all score functions, all generators, learning rates in (0,8), Lambda >= 0, base scores, depths >= 1", "why_tests_cant": "a statement about all data sets of a kind, and about all large numbers of rounds", "anchors": ["xgb.go:NewMultiClass", "multiclass.go:Accuracy", "tree.go:NewTree"]}
{"id": "C114", "title": "Boosting stumps converges to the best additive model", "statement": "Over the reals, with squared error, LearningRate in (0,8), MinChildWeight below 2, MaxDepth 1, no subsampling, no early stopping and Gamma 0 (or regular boosting): as the number of rounds grows, the logarithmic loss of the model on its training data converges to the infimum of the losses of all scores that add up one function per column. Each model is itself of this kind, so no other additive model does better in the limit, and none of the models does better than the best additive one (on exclusive or the losses converge to 4 log 2, the loss of guessing).", "quantifier": "all finite rectangular tables with a column and labels, all score functions, all generators, learning rates in (0,8), Lambda >= 0, base scores", "why_tests_cant": "a limit over the number of rounds and an infimum over all additive functions", "anchors": ["xgb.go:NewMultiClass", "multiclass.go:PredictSingle", "tree.go:NewTree"]}
{"id": "C115", "title": "A trained model can be used from several goroutines", "statement": "Any number of goroutines make sequences of PredictSingle, PredictSingleClass and Accuracy calls on one model, while the rest of the program writes to its own slices. Under every interleaving no call panics that does not panic alone, each call returns exactly what it returns when it is made alone, all goroutines end, the slices that PredictSingle returns are all different and keep their contents, and no slice of the program (buffers included) is changed by a call.", "quantifier": "all models, all numbers of goroutines, all sequences of calls, all interleavings, all buffers and writes of the program to slices that are not inside a running call", "why_tests_cant": "quantifies over all interleavings; a shared scratch slice would only show under unlucky schedules", "anchors": ["multiclass.go:PredictSingle", "multiclass.go:PredictSingleClass", "multiclass.go:Accuracy"]}
{"id": "C116", "title": "The slice given to PredictSingle is filled", "statement": "As documented, PredictSingle called with a slice fills that slice with the probabilities and allocates no new one.", "quantifier": "all models, rows and slices of sufficient length", "why_tests_cant": "quantifies over all models and slices", "anchors": ["multiclass.go:PredictSingle"]}
{"id": "C117", "title": "Feature importances add up to the improvement of the fit", "statement": "The importances that FeatureImportance reports for a tree add up to how much the tree improved the fit: for an xgboost tree to the decrease of the regularised second-order objective (leaf penalty gamma included) from the unsplit root with its best weight to the tree; for a regular tree to the squared error of the tree's predictions on its training rows minus the squared error of the mean (a value that is not positive). The importances of a trained model add up to the sum of this over its trees, each with the gradients and Hessians of the loss at the probabilities that the trees before it give to the training rows.", "quantifier": "all data, targets, gradients, hessians, options and trees with at least one split, in exact arithmetic; all trained models", "why_tests_cant": "quantifies over all data sets and trees; relates a report to an objective that the program never computes", "anchors": ["tree.go:FeatureImportance", "tree.go:NewTree", "multiclass.go:FeatureImportance"]}
{"id": "C118", "title": "Predictions only change at midpoints between training values", "statement": "Two rows that no midpoint of two different training values of a column separates get the same prediction from every tree and the same probabilities and class from every trained model. So beyond the largest or smallest training value of a column predictions no longer depend on the value; and, when rows are not subsampled, a row whose every value is nearer to that of a training row than half the way to any other training value of the column gets the probabilities and the class of that training row.", "quantifier": "all training data, options, draws and pairs of rows; the first part in any arithmetic, the other two in exact arithmetic", "why_tests_cant": "quantifies over all models and all perturbations of a row", "anchors": ["tree.go:NewTree", "tree.go:PredictSingle", "xgb.go:NewMultiClass", "multiclass.go:PredictSingle"]}
{"id": "C119", "title": "The gradient searches are hill climbing", "statement": "GradientGrid and HybridGradientGrid make, in the same order and with the same options, the cross-validations of this search on values: from each starting point in turn take up to NSteps gradient steps. A step that makes the accuracy worse than the last one noted is taken back, and the search goes on from a random variation of the point before the step. A better point than the best so far is noted. A step that changes nothing is a strike, followed by a random variation of up to 20 %, and three strikes in a row end the search from this starting point. A failed cross-validation ends the search with an error. The accuracies, the best accuracy, the files written and the options returned are those of this search, where the options returned are the last noted point as it was when the search left it.", "quantifier": "all grid options, starting points, cross-validation results, gradient steps and random draws", "why_tests_cant": "the program works with pointers to objects it changes in place; quantifies over all runs", "anchors": ["cv/grad.go:GradientGrid", "cv/hybrid.go:HybridGradientGrid"]}
{"id": "C120", "title": "A label that occurs once is never right in cross-validation", "statement": "A trained model never counts as right a row whose label is not in its training data. So in MultiClassCrossValidation a row whose label occurs only once in the data is always wrong, whatever the options: the accuracy is at most the mean over the folds of the percentage of test rows whose label occurs at least twice. If all labels are different (say, row identifiers used as labels) the accuracy is 0, and Grid returns accuracy 0 and nil options with a nil error, which a caller that uses the options without checking them (as the example program does) dereferences.", "quantifier": "all data sets, options, folds and random draws", "why_tests_cant": "quantifies over all data, options and draws", "anchors": ["cv/cv.go:MultiClassCrossValidation", "cv/cv.go:Grid", "multiclass.go:Accuracy", "utils/stat.go:CrossValidationSamples"]}
{"id": "C121", "title": "What a tree with the default options is", "statement": "On finite rectangular data, NewTree with DefaultXTreeOptions and the caller's gradients and non-negative Hessians returns a tree with at most 4 splits on a path and at most 31 nodes; every node has the value -G/(H+1) over its rows; every split raises G^2/(H+1) by more than 1 in total; and a node without children has depth 4 or there is no split, on any column and at any threshold, that does. With DefaultGTreeOptions every node has the mean of its targets, and a node without children has depth 4 or rows that no threshold on any column separates.", "quantifier": "all finite rectangular data, gradients, Hessians and targets; exact arithmetic", "why_tests_cant": "quantifies over all data; a test sees one tree and not that no better split was missed", "anchors": ["tree.go:DefaultXTreeOptions", "tree.go:DefaultGTreeOptions", "tree.go:NewTree"]}
{"id": "C122", "title": "A trained model can be saved", "statement": "Whenever NewMultiClass returns a model for finite training data, JSONMultiClass writes that model without an error, so that no training run is lost to a NaN or an infinity in a node of some tree; and what is written can be read back.", "quantifier": "all finite training data, options, random draws and orders of addition, in float64", "why_tests_cant": "depends on every intermediate float64 sum and quotient of every round staying finite; a test sees a few runs", "anchors": ["xjson.go:JSONMultiClass", "xjson.go:JSONTree", "xgb.go:NewMultiClass", "tree.go:NewTree"]}
{"id": "C123", "title": "The basic use of the README works", "statement": "For every libSVM or CSV file of int labels and ordinary decimal numbers (at most 15 significant digits), with at least one row and equally many numbers per row: the reader returns the labels and the nearest float64s, NewMultiClass with the default options returns a model, PredictSingleClass gives one of the classes for every row of that length, Accuracy on the file is a number between 0 and 100 that is 100 exactly if every row is classified as its label, and JSONMultiClass writes the model. The same with DefaultGOptions, except for writing (see C122).", "quantifier": "all such texts, any number of rows and columns (up to 2^50), any draws, sorting and order of addition, in float64", "why_tests_cant": "a test reads a few files; for some float64 data training does panic (C12), so it matters that no decimal data do", "anchors": ["README.md", "examples/basicboost.go", "utils/libsvm.go:ParseLibSVMFromReader", "xgb.go:NewMultiClass", "multiclass.go:Accuracy", "options.go:DefaultOptions"]}
{"id": "C124", "title": "Rows that are never drawn do not influence the model", "statement": "When rows are subsampled (SubSample below 1) and early stopping is off, the model returned by NewMultiClass depends on the values and labels of those rows only that some round draws, not counting the rounds that are skipped for having fewer than MinSample rows: two data sets with as many rows and columns and the same classes that agree on these rows give identical models. In particular a wrong label or an outlier in a row that is not drawn has no effect. Likewise NewTree does not depend on rows outside Indexes.", "quantifier": "all data sets, draws, numbers of rounds and classes, loss functions that work row by row (both of the library do), any arithmetic, exponential and sorting algorithm; early stopping off", "why_tests_cant": "a test changes a few rows of one data set; the rows that leak would have to be among them", "anchors": ["xgb.go:NewMultiClass", "xgb.go:SubSample", "tree.go:NewTree", "tree.go:findBetterSplit", "utils/math.go:SampleSlice"]}
{"id": "C125", "title": "The hyperparameter search of the README works on decimal data", "statement": "On any data set of 4 to 2^46 rows of numbers with at most 15 significant digits, MultiClassCrossValidation (more than one fold) returns without a panic or an error; Grid with the options of the README (and with any grid whose SubSample and ColSubSample are between 0 and 1) returns without a panic or an error an accuracy between 0 and 100, the largest of the accuracies of all the points waited for, and non-nil options: those of a point with that accuracy, with which NewMultiClass trains a model.", "quantifier": "all such data sets, labels, grids and numbers of folds, all random draws that make the samples (they do with probability 1), any exponential, sorting algorithm and number of CPUs; binary64", "why_tests_cant": "the README example has 27648 points with 8 trainings each and takes very long; a test sees one data set and one run of the random generator", "anchors": ["cv/cv.go:Grid", "cv/cv.go:MultiClassCrossValidation", "utils/stat.go:CrossValidationSamples", "xgb.go:NewMultiClass", "cv/cv.go:DefaultXGridOptions"]}
{"id": "C126", "title": "The gradient search of the README works on decimal data", "statement": "On any data set of 4 to 2^46 rows of numbers with at most 15 significant digits, GradientGrid with the options of the README (and both gradient searches in any box with central differences whose steps change shares of rows and columns by at most half) returns without a panic or an error an accuracy between 0 and 100 that was measured, and non-nil options, with which NewMultiClass trains a model. In particular no cross-validation that it makes, to compare options or for a derivative, panics or fails, in any schedule of the goroutines, although the shares can leave the box.", "quantifier": "all such data sets and labels, numbers of folds other than 1, all random draws that make the samples, all draws of the fuzzing, all schedules of the goroutines of the gradient steps; any exponential and sorting algorithm; binary64", "why_tests_cant": "the options that a search visits depend on the draws and on the schedule of the goroutines of every step; a test sees one path", "anchors": ["cv/grad.go:GradientGrid", "cv/grad.go:GradStep", "cv/grad.go:ParamaterGradStep", "cv/grad.go:fuzzOptions", "cv/hybrid.go:HybridGradientGrid", "cv/cv.go:MultiClassCrossValidation", "xgb.go:NewMultiClass"]}
{"id": "C127", "title": "Training and prediction do not write into the memory of the caller", "statement": "NewMultiClass, NewTree with new options, PredictSingle, PredictSingleClass and Accuracy change no entry of a slice that existed before the call (rows, labels, targets, gradients, earlier results), also when rows overlap or are the same slice and also when the call panics. The buffers that training reuses for every node, tree, class and round do not show in the result: models, probabilities, accuracies and panics are those of a program in which no two slices share memory.", "quantifier": "all memories, data sets with rows anywhere in the memory, options, random draws, sorting algorithms and exponentials; all numbers of rows, columns, classes, rounds and depths", "why_tests_cant": "whether a reused buffer or a shared array shows depends on the sequence of all writes of a training; a test compares one run", "anchors": ["xgb.go:NewMultiClass", "tree.go:NewTree", "multiclass.go:PredictSingle", "multiclass.go:PredictSingleClass", "multiclass.go:Accuracy", "utils/math.go:MemArgSort", "utils/math.go:DenseCol", "utils/loss_acti.go:SoftMaxDense"]}
{"id": "C128", "title": "A model and its results share no memory with the caller", "statement": "After NewMultiClass returned, the caller may overwrite the training data, the labels and any other slice that existed before: predictions and accuracies of the model do not change. The slice returned by ClassLabels is a copy: writing to it does not change the labels of the model. The slice returned by PredictSingle belongs to the caller: writing to it does not change later predictions, which are returned in other slices.", "quantifier": "all memories, data sets, options, draws, models and rows; any entries written afterwards", "why_tests_cant": "quantifies over all later writes of the caller", "anchors": ["xgb.go:NewMultiClass", "multiclass.go:ClassLabels", "multiclass.go:PredictSingle", "multiclass.go:Accuracy"]}
{"id": "C129", "title": "Cross-validation works on copies and leaves the data of the caller alone", "statement": "MultiClassCrossValidation changes no entry of a slice that existed before the call (also when it panics), and what it returns and sends is what a program in which no two slices share memory would. The sampler of CrossValidationSamples gives sets with the values that the data have at the time of the call. With usecopies, whatever is written into a row of a training or test set changes neither the data set, nor sets of earlier calls, nor any other row of the two sets, and whatever is written into the data set does not change the sets; the labels of the sets are copies in any case. Without usecopies the rows of the sets are the rows of the data set.", "quantifier": "all memories, data sets with rows anywhere in the memory (they may overlap), fold numbers, options, draws, sorting algorithms and exponentials; all entries written afterwards", "why_tests_cant": "quantifies over all layouts of the data in memory and over all later writes", "anchors": ["cv/cv.go:MultiClassCrossValidation", "utils/stat.go:CrossValidationSamples", "utils/stat.go:fillDataBunch"]}
{"id": "C130", "title": "Goroutines may train, predict and cross-validate on the same data at the same time", "statement": "Any number of goroutines that call NewMultiClass, PredictSingle, Accuracy and MultiClassCrossValidation at the same time, on the same data sets and models or on others, never race for an array that they share: in every interleaving the shared arrays stay as they were, every goroutine gets what it would get if it ran alone, and all of them end. This holds also if they are given the same Options, and if Accuracy is given a number of classes. (The last part fails: if MinChildWeight is less than 1 every training writes that field of the caller's Options, and Accuracy replaces a buffer in the model if the number of classes is larger than any before.)", "quantifier": "all numbers of goroutines and calls, all interleavings, memories, data sets (rows may overlap), models, options, draws, sorting algorithms and exponentials", "why_tests_cant": "a race shows only in some interleavings; quantifies over all of them", "anchors": ["xgb.go:NewMultiClass", "cv/cv.go:MultiClassCrossValidation", "multiclass.go:PredictSingle", "multiclass.go:Accuracy"]}
{"id": "C131", "title": "Cross-validation judges every row by a model that has not seen it", "statement": "MultiClassCrossValidation judges each row exactly once, by a model trained without it: changing the values or labels of the rows of one fold does not change the model that judges that fold. Hence the reported accuracy is not optimistic: if the labels are drawn at random, independently of the rows, the mean reported accuracy is at most the percentage of the most likely label, and with m equally likely labels (no early stopping, no row subsampling) it is exactly 100/m. The accuracy that Grid returns, the largest of several, is not such an estimate.", "quantifier": "all data, options, sorting algorithms, draws and exponentials; all label distributions; the folds in any arithmetic, the means in exact arithmetic", "why_tests_cant": "a mean over all labellings of data sets of any size; a leak of test rows into training shows as a small bias only", "anchors": ["cv/cv.go:MultiClassCrossValidation", "cv/cv.go:Grid", "utils/stat.go:CrossValidationSamples", "multiclass.go:Accuracy"]}
{"id": "C132", "title": "With conflicting labels deep regular trees converge to the label frequencies of equal rows", "statement": "Regular boosting with squared error, a learning rate below 8, no early stopping, MinChildWeight below 2 and trees deep enough to tell the rows apart: as Rounds grows, the probability predicted for a label on a training row tends to the share of that label among the training rows equal to it. From some number of rounds on, PredictSingleClass returns a most frequent label of the equal rows, and Accuracy on the training data is exactly the best that any function of the row can reach.", "quantifier": "all training sets with rows of one width, sorting algorithms and draws; numbers of rounds tending to infinity; real arithmetic", "why_tests_cant": "a limit over numbers of rounds, for all data sets; a run with some number of rounds shows one value of the sequence", "anchors": ["xgb.go:NewMultiClass", "multiclass.go:PredictSingle", "multiclass.go:PredictSingleClass", "multiclass.go:Accuracy", "tree.go:NewTree"]}
{"id": "C133", "title": "In float64 a change of units does not change the model", "statement": "Bit for bit, in float64: when the features are decimals of at most 15 digits and are converted to other units (or changed by any increasing function) with at most 15 digits, NewTree returns the same tree up to its thresholds, every row of the data gets the same probabilities from a model trained without row subsampling, and labels and feature importances are the same. When features are multiplied by powers of two, all rows get the same probabilities, with any options. A row that is not in the data may change sides under a decimal conversion, because the threshold, the mean of two values, is rounded.", "quantifier": "all data sets, options, losses, draws and exponentials; all sorting algorithms that look at the data only through Less; decimals of at most 15 digits or, for powers of two, values that are 0 or between 2^-900 and 2^1000; float64, any order of the additions of floats.Sum", "why_tests_cant": "an equality of results, bit by bit, for all data sets and conversions; tests compare a few data sets, usually up to a tolerance", "anchors": ["tree.go:NewTree", "tree.go:PredictSingle", "xgb.go:NewMultiClass", "multiclass.go:PredictSingle", "multiclass.go:FeatureImportance"]}
{"id": "C134", "title": "What training with early stopping computes", "statement": "A training run with EarlyStop fills a table of trees with a place for every class in every executed round. Every class gets a tree in the first executed round; it gets a tree in the next executed round exactly if it got one in this round and there is no reason to stop it, a reason being that its loss is at most 1e-6 or that each of its last EarlyStop losses is not smaller than the one before (if round 0 is skipped, the code takes 0 for the loss before the first). Each tree is the one NewTree builds from the gradients and hessians of the loss between the indicator of its class and the softmax of the scores of all trees made before, each counted for its own class. The rounds of the model are the rounds of the table with the empty places taken out. There is exactly one such table. If in every round the empty places come last, the model predicts what the table predicts; the probabilities at the end of the training are always those of the table.", "quantifier": "all data sets with as many rows as labels, options, losses, draws, exponentials and sorting algorithms for which training returns; any arithmetic in which base * 1 = base", "why_tests_cant": "describes every training run, of any length and number of classes, completely; tests run a few", "anchors": ["xgb.go:NewMultiClass", "multiclass.go:PredictSingle", "tree.go:NewTree"]}
{"id": "C135", "title": "Lambda limits the steps and Gamma the splits of an xgboost model", "statement": "Let c be 1 for the squared error loss and 0 for MSELoss. No tree of an xgboost model trained on n rows predicts more than n/(c*n+Lambda) in magnitude, for any row. The probabilities that a model of R rounds, learning rate lr and m classes predicts differ from 1/m by at most (exp(2*|lr|*R*n/(c*n+Lambda))-1)/m, so that with a large enough Lambda all classes are as nearly equally likely as one wants. If Gamma is at least n^2/(c*n+Lambda), no tree has a split (each has one node), and the model predicts the same for any two rows. For a single xgboost tree the same holds with bounds B on the gradients and c on the Hessians.", "quantifier": "all real data sets and rows, labels, draws, sorting algorithms and options with Lambda >= 0 and c + Lambda > 0 for which training returns (with two different labels for MSELoss)", "why_tests_cant": "a bound over all data sets and all predicted rows", "anchors": ["xgb.go:NewMultiClass", "tree.go:NewTree", "multiclass.go:PredictSingle"]}
{"id": "C136", "title": "Repeating the training data is multiplying MinChildWeight, Lambda and Gamma", "statement": "Let a data set hold every labelled row of another one k times as often, with the labels met in the same order (for instance k copies one after the other). Trained on it with MinChildWeight, Lambda and Gamma multiplied by k, a model has the same labels and the same number of trees, and it predicts the same probabilities and the same class for every row, as the model trained on the other data with the given options, if rows are not subsampled, MinChildWeight is a whole number of at least 1 and arithmetic is exact. For regular boosting only MinChildWeight has to be multiplied; for xgboost all three have to. The same holds for single xgboost trees.", "quantifier": "every rectangular data set, every k >= 1, every order of the repeated rows that meets the labels in the same order, both kinds of boosting, both losses, every other option, every draw and sorting routine, for which training returns", "why_tests_cant": "all data sets, all numbers of copies and all orders; the numbers compared are equal only in exact arithmetic", "anchors": ["xgb.go:NewMultiClass", "tree.go:NewTree", "multiclass.go:PredictSingle"]}
{"id": "C137", "title": "Model files are lines of JSON, read by what they say and not by how they are written", "statement": "Every line that JSONMultiClass writes for its metadata or a node is one JSON object (RFC 8259) with exactly the exported fields, on one line. UnJSONMultiClass accepts as metadata or node exactly the lines that are a JSON object whose members give the fields values of the right type (or null): order, white space, case of the names, escapes and unknown members make no difference, missing members are zero, of repeated ones the last counts. So two files that say the same line by line give the same model; a file edited or rewritten by another JSON tool is read as before, as long as it is line by line and no ignored member contains the words ROUND or CLASS.", "quantifier": "every text (not only those boo wrote), every node and metadata, every text of float64 numbers with the laws of strconv", "why_tests_cant": "all texts: the claim says which of all possible files are accepted and what they mean", "anchors": ["xjson.go:UnJSONMultiClass", "xjson.go:JSONMultiClass", "utils/json.go:UnJSONTree", "utils/json.go:JSONTree"]}
{"id": "C138", "title": "Test data can be evaluated in parts and in any order", "statement": "For a trained model and labelled rows that it can predict, every entry of the confusion matrix of a data set is the sum of the entries of the matrices of its parts, and its accuracy is the mean of the accuracies of the parts weighted with their numbers of rows (the plain mean for parts of the same size). The order of the rows makes no difference to the matrix and, bit for bit, to the accuracy.", "quantifier": "every trained model, every data set, every division into parts and every order of the rows, labels unknown to the model included; the weighted mean in exact arithmetic, the rest in any", "why_tests_cant": "all divisions and all orders of all data sets, for all models", "anchors": ["multiclass.go:Accuracy", "confu/confu.go:Matrix", "confu/confu.go:MCConfusions"]}
{"id": "C139", "title": "A model of one label gives every row the same scores: one class is no regression", "statement": "Trained on data in which all rows have one label, a model gives every row the raw score BaseScore and the prediction 1 (with MSELoss and regular boosting or Lambda 0: NaN), whatever the features, the label and the other options. This would also be so if NewMultiClass used another activation function, as the README suggests for regression: with squared error and Gamma >= 0, any function of a row with one score, the one that does nothing included, gives a model with the same scores for all rows.", "quantifier": "every training set with one label and finite features, all options with Lambda >= 0, both losses, both kinds of boosting, every activation function that makes a number of one number, every row; exact arithmetic", "why_tests_cant": "all data sets, all rows and all activation functions", "anchors": ["xgb.go:NewMultiClass", "utils/loss_acti.go:SoftMaxDense", "multiclass.go:PredictSingle", "tree.go:findBetterSplit"]}
{"id": "C140", "title": "What Verbose prints during training", "statement": "Printing does not change the model, and without Verbose nothing is printed. With Verbose the standard output has one line for every tree of the model, in the order in which the trees are made: the number of the round in the loop (rounds skipped for want of sampled rows count), the index of the class, and the loss of that class with all the trees made up to then. So the lines also tell to which class a tree of a round belongs when classes were stopped early. When no class was stopped, the last line is the loss of the returned model's own predictions for its last label. The log says 'Class k stopped early at round r' only of a class that had a line in round r and has none later, and every class without a line in an executed round was announced in the log before.", "quantifier": "every training set, all options, all draws, every sort, any arithmetic in which base*1 = base", "why_tests_cant": "all data, options and draws; the order and the content of all lines", "anchors": ["xgb.go:NewMultiClass"]}
{"id": "C141", "title": "What Verbose prints during a search", "statement": "Printing does not change what Grid, GradientGrid and HybridGradientGrid return, and without Verbose they print nothing to the standard output. With Verbose there is one header line for every combination of Rounds and MinChildWeight (GradientGrid: every MinChildWeight), in the order of the loops, with those numbers. Every line 'New best accuracy' has an accuracy that a cross-validation of the search reported, with the options of that cross-validation, as they are after MinChildWeight is raised to at least 1. In Grid the accuracies of these lines increase, and the last line has the accuracy and the options that are returned; in the gradient searches their accuracies are the returned list, in the same order, and the last line has the returned options. Each such line stands under the header of its own Rounds and MinChildWeight (gradient searches: of its MinChildWeight).", "quantifier": "every data set, all ranges for which the loops end, all draws, every sort, all gradient steps, any ordered arithmetic", "why_tests_cant": "all data, grids and draws; the order and the content of all lines", "anchors": ["cv/cv.go:Grid", "cv/grad.go:GradientGrid", "cv/hybrid.go:HybridGradientGrid"]}
{"id": "C142", "title": "What cross-validation logs", "statement": "Logging changes nothing of what MultiClassCrossValidation returns and sends. A call that returns an error logs nothing, and the error says that one fold is left and which numbers of folds were tried. Otherwise the log begins with a message about fewer folds exactly when fewer folds than asked for (5 if that is not positive) were made; it has the number of folds made, the number of rows, and the reason: one fold more would have fewer than 2 rows. After it there is one message for each fold that gave no model, in the order of the folds and with the number of that fold, and nothing else. Each message is one line.", "quantifier": "every data set, any number of folds, all options, all draws, every sort, any arithmetic", "why_tests_cant": "all data, fold numbers, options and draws", "anchors": ["cv/cv.go:MultiClassCrossValidation", "utils/stat.go:CrossValidationSamples"]}
{"id": "C143", "title": "The example program", "statement": "The program examples/basicboost.go, run on a libSVM file with a header and at least 4 rows of at most 21 numbers of at most 15 digits, ends without a panic. It prints three accuracies that are numbers from 0 to 100, the options found by Grid and by GradientGrid, and at last a number that is one more than the number of different labels that stand in the file before the first row with the predicted label; the predicted label is one of the file, and the first of the most probable ones for the row in the program.", "quantifier": "every such file with up to 2^46 rows, all draws of the trainings, cross-validations and searches with which the samples can be made, every schedule of the goroutines of the search, every sort and every function exp, binary64", "why_tests_cant": "all files, draws and schedules", "anchors": ["examples/basicboost.go:main"]}
{"id": "C144", "title": "Cross-validation of data with one label", "statement": "If all rows of the data have the same label, every prediction is right: MultiClassCrossValidation reports an accuracy of exactly 100, and Grid, GradientGrid and HybridGradientGrid return options with a positive accuracy.", "quantifier": "all data with one label, options, numbers of folds and draws, binary64", "why_tests_cant": "all data sizes, options and draws; whether a fold is counted depends on what is drawn in it", "anchors": ["cv/cv.go:MultiClassCrossValidation", "cv/cv.go:Grid", "cv/grad.go:GradientGrid", "cv/hybrid.go:HybridGradientGrid", "multiclass.go:Accuracy", "multiclass.go:Rounds"]}
{"id": "C145", "title": "What the example program writes", "statement": "A run of examples/basicboost.go that ends has written to the standard output, in this order and nothing else: one line for every tree of the first model (round, class and loss); the accuracy of that model on the file; the lines of Grid; its best accuracy and the rounds, depth and learning rate of the options of the last of its lines 'New Best Accuracy'; the list of the accuracies reported by these lines; the lines of GradientGrid; its best accuracy, options and list of accuracies, which are those of its lines 'New best accuracy' in the same order, the last one being the best accuracy; and the number of the class. The second training prints nothing.", "quantifier": "every file, all draws and schedules with which the program ends, every number format that gives texts without white space", "why_tests_cant": "all files, draws and schedules", "anchors": ["examples/basicboost.go:main", "cv/cv.go:Grid", "cv/grad.go:GradientGrid", "xgb.go:NewMultiClass", "options.go:String"]}
{"id": "C146", "title": "When no split is possible the model is constant", "statement": "With a MaxDepth of 0 or less, with fewer than 2*MinChildWeight training rows (MinChildWeight counts rows, whatever their hessians), or with training rows that have the same value in every usable column, NewTree returns a single leaf, and every tree of a model is one, so that the model gives all rows, of any length, the same probabilities and class, and its Accuracy on any data is the share of one of its labels. With the default options of either kind of boosting this is so for all training sets of at most five rows.", "quantifier": "all data, labels, options, losses, samplings and both kinds of boosting, any arithmetic in which comparison is that of floats; NaN and infinities included", "why_tests_cant": "a test trains on one small data set; the claim is for all data and options", "anchors": ["tree.go:NewTree", "tree.go:findBetterSplit", "xgb.go:NewMultiClass", "multiclass.go:PredictSingle", "multiclass.go:Accuracy", "options.go:DefaultOptions"]}
{"id": "C147", "title": "A model without splits learns how frequent the labels are", "statement": "Over the reals, with SQErrLoss, a learning rate between 0 and 8, no early stopping, no MinSample and no subsampling of rows, take data and options that leave no split (C146), and train models with 1, 2, 3, ... rounds. All rows get the same probabilities, and these tend to the shares of the labels in the training data. From some number of rounds on every row is given a most frequent label of the training data, and the Accuracy on any labelled rows is the share of that label among them.", "quantifier": "all data, labels, options with no split left, both kinds of boosting, all sorts and draws, all rows predicted", "why_tests_cant": "a limit over the number of rounds, for all data", "anchors": ["xgb.go:NewMultiClass", "tree.go:NewTree", "multiclass.go:PredictSingle", "multiclass.go:PredictSingleClass", "multiclass.go:Accuracy"]}
{"id": "C148", "title": "The direction of a column does not matter for the training rows", "statement": "Over an exact ordered field, take a tree, regular or xgboost, and a second one for the same options, targets or gradients, on data in which some columns were turned round, for instance by changing the sign of their values (more generally: every column keeps the order of its rows, or has the opposite one). Every training row gets the same prediction from both trees. Models trained over the reals on the two data sets, without subsampling of rows and early stopping, give every training row the same probabilities and the same class.", "quantifier": "all data, targets, gradients with non-negative Hessian, options, depths, column samples and sorts, all sets of columns turned round", "why_tests_cant": "all data and all sets of columns turned round; midpoints and the order of the search change", "anchors": ["tree.go:NewTree", "tree.go:findBetterSplit", "tree.go:PredictSingle", "xgb.go:NewMultiClass", "multiclass.go:PredictSingle"]}
{"id": "C149", "title": "The sign of a column does not matter for new rows", "statement": "Over an exact ordered field, take a tree, regular or xgboost, and a second one for the same options, targets or gradients, on data in which the sign of all the values of some columns was changed. Every row, of the training data or not, gets from the first tree the prediction that the row with the signs changed gets from the second. Models trained over the reals on the two data sets, without subsampling of rows and early stopping, give the two rows the same probabilities and the same class.", "quantifier": "all data, targets, gradients with non-negative Hessian, options, depths, column samples and sorts, all sets of columns with changed signs, all rows to predict", "why_tests_cant": "all data, all sets of columns and all rows; thresholds, the order of the search and the sides of the splits change", "anchors": ["tree.go:NewTree", "tree.go:findBetterSplit", "tree.go:PredictSingle", "xgb.go:NewMultiClass", "multiclass.go:PredictSingle"]}
