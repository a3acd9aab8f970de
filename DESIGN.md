# Formal model of rmera/boo in Lean 4 — design

## 1. Approach

The model is a set of total Lean functions, one per Go function, under `lean/Verif/Model/`.
Each definition cites the Go file and lines it models. Property theorems live in
`lean/Verif/Props/`, apart from helper lemmas (`lean/Verif/Lemmas/`).
Small specifications that the statements need and that do not mention the
implementation are next to the theorems (`Props/*` or `Spec/*`).

### Floating point
All model code is polymorphic in a type `F` with `[GoFloat F]`: the float64 operations
that boo uses, *without any law*. Theorems come in three strengths:

* **any arithmetic**: no law, or only the IEEE comparison laws (`GoFloatOrd`: `<` is a
  strict order, NaN compares false, trichotomy for non-NaN). These hold for float64
  whatever the rounding.
* **exact arithmetic**: `XF (exactR K)`, IEEE special values (NaN, ±Inf, x/0) over an
  exact ordered field `K` (`ℚ`, `ℝ`). These say that the algorithm is right up to rounding.
* **binary64**: `XF b64`, the same special values with round-to-nearest-even at 53 bits,
  exponent range and overflow of IEEE binary64, over `ℚ`. Used for statements that are about rounding, and for
  counterexamples where the code violates the property only because of rounding.

Simplifications: +0 and −0 are identified; NaN payloads are not modelled; `math.Exp`,
`math.Log` are parameters (the real `exp`, `log` in exact arithmetic, arbitrary functions otherwise);
`floats.Sum` is an operation of `GoFloat` (its order of summation is an implementation detail of gonum). In binary64 the order is a
parameter of the arithmetic: `F64o τ`, where `τ` is any tree of additions for each length (`SumOrder`), and `F64 = F64o none` adds from
left to right. Positive results about binary64 are stated for every `τ`; counterexamples are evaluated with `F64`. In exact arithmetic
the order makes no difference (`sum_order_exact`); in binary64 it does (`sum_order_binary64`). That the order depends on the length
only is a simplification (gonum's amd64 kernel also looks at the alignment of the slice);
no fused multiply-add (the Go compiler may fuse `x*y+z` on some architectures, not on amd64).

### Panics, errors, nil
`Go α = Except Panic α`. Index, slice, nil and division panics, the explicit `panic(...)`
calls and gonum's shape panics are modelled as values of `Panic`. `error` returns are values.
nil slices whose nil-ness matters are `Option`. nil `*Tree` is `Tree.nil`.

### int
Go `int` is unbounded `Int`/`Nat`. Row and column indexes are `Nat` (a negative index, which would panic, cannot be expressed).

### Sorting
`sort.Sort` is a parameter `GoSort`: any function that permutes its input and, if `Less` is a
strict weak order, sorts it. Not assumed stable. Theorems hold for every such sort. C133 assumes in addition that the
routine looks at what it sorts only through `Less` (`GoSort.OnlyCompares`), as `sort.Sort` has to.

### Randomness
`rand.Float64`, `rand.IntN` are streams passed as arguments; theorems quantify over all streams.

### Concurrency
Goroutines and channels are labelled transition systems over explicit states; theorems quantify over every
interleaving (every execution of the transition relation).

### Text
Strings are `List Char`. `%d`/`Atoi` are modelled by decimal digits. The text of floats
(`%5.4f`, `ParseFloat`, `encoding/json`) is a parameter with stated laws, and an instance shows that the laws are satisfiable.

### Loops without a bound
Rejection loops (`CrossValidationSamples`) and the float loops of the grids are fuelled: the result is `none`
when the fuel runs out. Theorems are stated for every fuel for which the function returns, next to theorems saying when
a fuel suffices and witnesses of divergence. `Run α = ExceptT Panic Option α` is used where both panics and divergence occur.

### Pointers
Where aliasing matters (gradient search options, TopN buffers, tree options that `NewTree` writes to) the model uses an explicit heap
or passes the changed object out. `Model/Mem` treats all slices of training and prediction as references; C127 shows that the model with slices as values agrees.

### History variables
`trainH` (training with the list of what each round did) and `SearchState.calls` (the cross-validations made so far) are
additions to the code for stating properties of executions; `trainH_exists` relates the first to the plain function.

## 2. Properties: what is modelled and how it is proved

*neg* = the code violates the property: the negation is proved with a concrete witness (reachable through the API) and the part
that holds is proved as `…_partial` or for a stated arithmetic. The theorem names are in `MANIFEST.json`.

| id | model | proof |
|----|-------|-------|
| C01 depth | `NewTree` recursion | induction on depth, any arithmetic |
| C02 leaf/children | `NewTree`, `Leaf`, `PredictSingle` | invariant of the split scan (score leaves the sentinel only by an update), order laws |
| C03 partition | same | induction; filter/not-filter permutation |
| C04 routing | same | induction |
| C05 branches | same | induction |
| C06 MinChildWeight | same | exact: sorted prefix lemma; binary64: neg (midpoint of adjacent floats rounds up; overflow of the midpoint), partial: left child, both for data on a binary grid, and both when no two different values of a feature are adjacent floats (`Props/Apart`, by a proof that rounding goes to the nearest float) |
| C07 best split | `findBetterSplit` | loop invariant: running sums = sums over filter; exact arithmetic |
| C08 columns | `clone` drops the column list | neg; partial: root split, trees of depth one |
| C09 xgb value | `NewTree` | algebra |
| C10 means | `NewTree`, `Predict` | induction + convexity |
| C11 gain | `findBetterSplit` | algebra + induction |
| C12 no panic | all of tree building | exact: induction; binary64: neg, partial on a grid or when no two different values of a feature are adjacent floats |
| C13 Predict | `Predict` | induction |
| C14 importance | `FeatureImportance`, `Feats` | refinement to a map of sums + sortedness of last step |
| C15 Add races | two-step transition system | neg (duplicate entry); partial: sums conserved in every interleaving, unique when sequential |
| C16 tree JSON | `JSONTree`, `UnJSONTree` | induction, ids by accumulator |
| C17 model JSON | `JSONMultiClass`, `UnJSONMultiClass` | neg (the last round is never read back; an unknown activation name leaves a nil function); partial: exact characterisation of what is read back |
| C18 kind | `UnJSONMultiClass` drops xgb flag | neg; partial for regular models |
| C19 truncation | byte prefix of the file | induction over lines |
| C20 train = predict | `NewMultiClass`, `PredictSingle` | loop invariant; neg under early stopping (trees shifted to the wrong class); partial otherwise |
| C21 Rounds/Classes | accessors | neg (swapped); exact characterisation |
| C22 rounds | training loop | neg (no round with MinSample >= 1 and no subsampling); partial |
| C23 argmax | `PredictSingleClass` | induction; exp monotone; neg on overflow of `exp` |
| C24 softmax | `SoftMax` | real analysis (exp positive, monotone); neg for buffers that are too long and on overflow |
| C25 accuracy | `Accuracy` | counting; binary64 bounds by monotonicity of rounding |
| C26 SubSample | `SubSample` | induction; neg: a negative fraction panics |
| C27 early stop | training loop | invariant over rounds (history variable); neg when round 0 is skipped |
| C28 Check | `Check` | case analysis; neg: NaN, and the default options of regular boosting are rejected |
| C29 Equal/Clone | `Equal`, `Clone` | neg (TreeMethod, EarlyStop); partial |
| C30 derivatives | losses | `HasDerivAt` |
| C31, C32 | losses, `Normalization` | algebra |
| C33–C37 folds | `CrossValidationSamples`, sampler | induction over draws; C34 neg (division by zero), C36 neg (keys) |
| C38 columns of matrices | flat array loops | div/mod arithmetic; neg for k = number of columns |
| C39–C41 | utils | induction; C41: a longer buffer gives a different result |
| C42–C45 text | parsers and printers | induction over text; what lines, words, white space and numbers are is specified in `Spec/Text`, `Spec/Csv`; C42 neg (last row), C44 neg (blank line) |
| C46–C50, C67 confu | confusion tables, heap of buffers | counting; C49 neg (aliasing), C50 neg (last line, read errors) |
| C51–C54, C68 grid | `Grid` loops, batches, channels | LTS invariants, measure; C51 neg (the last incomplete batch is dropped), C53 neg in binary64, C54 neg (empty models count as 0) |
| C55–C63, C69 gradient search | `ParamaterGradStep`, `GradStep` as LTS, heap model of the searches | field-wise invariants over all interleavings, counting of sends, measure; C55, C57–C61, C69 neg |
| C64 | `LogOddsFromProbs` | neg; what it computes |
| C65, C66 | `NewTree`, `Print` | neg; partial |
| C70 fitted trees | training loops | invariant over rounds and classes relating `rawPred`/`probs` to the trees so far (`Spec/Boost.lean`) |
| C72, C75–C78 pairs of runs | training loops | simulation of two runs (other draws, renamed labels, fewer rounds, Verbose) |
| C71 probabilities | training loops over exact reals | invariant: all scores, probabilities, gradients and leaf values are real, probabilities strictly between 0 and 1; neg in binary64 by evaluation |
| C73 invariance | `NewTree`, training loops over an ordered field | two sorted scans related by an increasing map see the same cuts; induction on depth gives trees that correspond node by node; simulation of the training loops; neg in binary64 |
| C74 base score | training loops, `PredictSingle` over exact reals | simulation with all scores shifted by a constant; softmax is shift-invariant, NaN and infinities included; neg in binary64 |
| C79 total predictions | training loops, prediction loops | invariant: every tree splits on columns of the training rows; neg for models without rounds |
| C80, C81 depth | `NewTree` | induction on depth; telescoping of the gains (C11) gives the objective |
| C82 gamma | `NewTree` over an ordered field | two scans with scores shifted by half the difference; neg in binary64 |
| C83 columns | `NewTree`, training loops | the search of the new column returns the best split so far; simulation of the training loops |
| C84 units of targets | `NewTree` | simulation of the two searches (`newTreeD_equivariant`): sums and gains are scaled, comparisons are not; counterexample in binary64 |
| C85 saving and loading repeatedly | `JSONMultiClass`, `UnJSONMultiClass` | what is not saved does not matter to what is saved; text of a list of rounds splits; induction on the number of times; neg |
| C86 unlisted features | `FeatureImportance`, `PredictSingle` | induction on the tree: every feature a split tests is in the list; fold over the model |
| C87 early stopping leaves out | `NewMultiClass` | simulation of the training loops with and without early stopping, up to the first class left out |
| C89 `XGB` and `EarlyStop` of searches | options measured and returned by the three searches | invariants of the loops (sent options; option heap and calls); early stop of the gradient searches neg |
| C90 options without effect | `NewMultiClass` with `XGB` off | simulation of two runs whose options agree on the fields that are read |
| C91 `WriteBest` | `writeBest` and the loops that call it, `Model/WriteBest` | invariant: the last write is the best so far; the searches with and without writes return the same; read-back and gradient parts neg |
| C88 printed tree | `Tree.Print`; a reader of the text in `Spec/Rules` | induction over the tree: the text reads back as its rules; following them is predicting away from thresholds; neg at a threshold |
| C92 `String` methods, `PrintDenseMatrix` | `Model/Strings`, `Model/Print` | words of the lines of the texts; the text of options is injective on what it shows |
| C93 splits in binary64 | as C07, arithmetic `F64`, data without neighbouring values (`Apart64`) | error bounds of every operation of the scan (`Lemmas/B64Err`, `B64Gain`, `B64Scan`); the threshold separates the samples as in exact arithmetic |
| C94 node values in binary64 | as C10, C09, arithmetic `F64` | error of a left-fold sum of floats, of the denominator and of the quotient |
| C95 row order of models | `newMultiClass` on permuted rows, exact arithmetic | the permutation carried through trees, Newton steps, predictions and states of the training loop (`Lemmas/RowOrder`); with two labels the trees of the two classes are each other's negatives (`Lemmas/TwoClass`); counterexample with three classes in real arithmetic |
| C96 probabilities in binary64 | `softMax`, `predictSingle`, arithmetic `F64`, `exp` any function accurate to `2^-52` on [-700, 700] | error of sum and quotient, in the reals (`Lemmas/B64Soft`); a clearly larger score has a strictly larger quotient |
| C97 scores in binary64 | `rawScores`, `predictSingle`, arithmetic `F64` | class by class left fold of rounded products; softmax is Lipschitz |
| C98 losses in binary64 | `LossFunc` values, `normalization`, arithmetic `F64` | relative error of a difference (no underflow), of squares, sums, quotients; grid argument for the positive Hessian |
| C99 training in binary64 | `newMultiClass`, `predictSingle`, arithmetic `F64` | induction over the rounds: leaf values are at most `W`, so scores stay below 700 and the next probabilities exist; gradients are at most 1, so a mean (or a sum divided by the regularised Hessian) is at most `W` after rounding, whatever rows reach the leaf |
| C100 more rounds, lower log-loss | `newMultiClass`, `predictSingle`, arithmetic `Exact ℝ` | one leaf changes one class score of its rows by `d`; Hoeffding's inequality `log(1-p+p·e^d) ≤ p·d + d²/8` bounds the change of the loss of a row, the sum over the leaf is negative because the leaf value is a damped mean of the gradients; induction over leaves, classes and rounds |
| C101 deep regular trees learn the data | `newMultiClass`, `predictSingleClass`, `accuracy`, arithmetic `Exact ℝ` and binary64 | a regular tree splits as long as two rows of a node differ and depth is left, so rows in one leaf have equal features and hence equal labels; the leaf value then has the sign of (label − probability), so the score of the right class goes up and the others go down; induction over classes and rounds; `C101_xgboost_xor` shows that the xgboost gain rule stops at exclusive or; in binary64 (`C101_binary64_rows`) the rounded mean of equal-label residuals is still on the right side of 0 by at least `2⁻¹¹` (softmax error of C96) as long as the scores of the class are not yet ahead, and rounding is monotone, so the first round separates the classes strictly and no later round undoes it |
| C102 order of the columns | `newTree`, `newMultiClass`, `predictSingle`, `featureImportance` | the column loop keeps the strictly best split, so without ties (`NoTies`: no other usable column has a one-column tree of the same score) its result is the same for any order; induction over the depth gives the renumbered tree; induction over rounds and classes with `C70_fitted` gives the renumbered model; `C102_violated` shows that ties are broken by position |
| C103 xgboost learns separable data | `classTree`, `newTree`, `newMultiClass`, `predictSingleClass`, `accuracy` | invariant: rows of the same label have the same scores, so gradients and hessians depend on the label only; a mixed set of rows is worth less (`G²/(H+λ)`) than the rows of one of its labels, and `G²/(H+λ)` is superadditive on rows of one label, so the split between the labels beats every other (`TwoClass.gain_le`) and its sides are not split again; the leaves then move the scores apart, as in C101 |
| C104 size | `newTree`, `Tree.leaves`, `Tree.size`, `newMultiClass` | induction on the depth for `2^MaxDepth`; the leaves partition the rows (C03) and each has `max(1, MinChildWeight)` rows (C06), so their number is bounded; rounds and classes as in C22; the binary64 bound fails with C06 |
| C105 no extrapolation | `newTree`, `Tree.predictSingle` | a prediction is the value of a node, that is a mean of targets (C10) or `-ΣG/(ΣH+λ)` (C09) of training rows, hence within their range; in binary64 within the rounding error of C94 |
| C106 confidence | `newMultiClass`, `predictSingle` | with hessian 1 and `|p - y| ≤ 1` all node values are within [-1, 1] (C105, leaf update); each round moves a score by at most `|lr|`; softmax of scores within `d` of the base score |
| C107 end of searches | `compareAccs`, `searchSteps`, `searchFrom`, `searchAll` | the history variable `calls` and the counter `steps` after each loop (`Went`): at most one call per step, an error only in the last call; for the strikes an invariant set of options that no step changes (`NoMoves`) |
| C108 errors and loss | `predictSingle`, `predictSingleClass`, `accuracy` | the probabilities sum to 1 (C71), so at most one is above 1/2 and it is the largest; a wrong row has `p ≤ 1/2` and costs `log 2` |
| C109 GradStep with a channel | `GradStepCall` (objects behind pointers, what is sent) | the runs on the options and on their clone are bisimilar (`CloneRun`); neg: nothing is sent after a failed cross-validation, EarlyStop of the answer is 0 |
| C110 distribution of SubSample | draws as random variables on a probability space: independent, uniform on [0,1] (exact reals) or `k/2^53` with `k` uniform (binary64, which is what `rand.Float64` returns) | probability of every outcome by independence (`filter_prob`), mean by linearity; rounds from C22 |
| C111 fair folds | the draws of `rand.IntN(tot)` as independent uniform random variables with values in `Fin tot` | almost sure return: second Borel–Cantelli lemma and C35; equal probabilities: renaming the draws renames the folds (`foldsOf_map`) and does not change the law of the draws (`law_perm`); number of renamings by counting a stabiliser |
| C112 calibration | the whole of training over the reals, `M R` being the model with `R` rounds | each round decreases the summed log loss by at least a constant times the energy `Σ (Σ_leaf residuals)²/(size+Lambda)` of its trees; the loss is bounded below, so the energies tend to 0; the energy bounds the residual sum of all rows, and (greedy optimality of the first split) of both sides of every allowed threshold |
| C113 additive scores | as C112; scores are sums of one arbitrary function per column | by C112 the residual sums below all thresholds get small, so those over all rows with one value do, so the residuals are nearly orthogonal to every additive score; a margin turns this into missing probability on the right labels |
| C114 stumps converge | as C112 with trees of depth 1; additive scores as in C113 | each tree adds a function of one column, whose size is bounded by the step of the loss (C112), so the scores are additive with a bound growing like the sum of the steps; convexity of the loss (Gibbs) and the residual bounds give `L(R+1) - L* <= (A + B·Σe)·e` for `e^2` the decrease of the loss, which forces `L -> L*` |
| C115 use from several goroutines | Model/Serve.lean: small steps of `PredictSingle`, `PredictSingleClass`, `Accuracy` on a memory of blocks; any interleaving, with writes of the rest of the program | invariant: each running call owns two blocks made by it that no other goroutine, result or program slice has, and finishing the loop from the present `tmp` gives the scores of the call made alone; a count of the remaining steps drops by one in each step |
| C116 the slice given is filled | as C115 | violated: from C115 the slice given as buffer never changes, the probabilities are in a new slice |
| C117 importances add up | sums of the reported importances against `treeObjective` and `sse`, exact arithmetic | induction on the tree: the score of a split is the objective at the node minus the objectives at its children, so the sum telescopes; C14 gives that the report has the totals per feature; C04 and C10 turn leaf sums into predictions; for trained models (`C117_trained`) C70 gives the gradients and Hessians of each tree, and finiteness during training (C71) makes them numbers |
| C118 predictions change at midpoints only | `SameCells`, `Near`, `Beyond` of a row and another one against the training data | invariant of the tree: each threshold is the midpoint of two different values of the column, neighbours among the rows at the node; induction along the path; `updateLeaves` changes values only |
| C119 hill climbing | Spec/Climb: the search with one current point as a value | refinement: the current pointer points to the current value; the pointer to the noted point is that pointer, or points to an object with the kept value that is not changed any more |
| C120 labels that occur once | model trained on a fold, `Accuracy`, `Grid` | class labels are those of the training part (C22); the labels of training and test part together are a permutation of the data's (C33); `Grid` by induction over the points |
| C121 default trees | `defaultXTreeOptions`, `defaultGTreeOptions`, `newTree` | C01, C05, C07, C09–C12 with the numbers of the defaults |
| C122 saving what was trained | `newMultiClass`, `jsonMultiClass` | float64 bounds of every score, threshold and value of every node (Lemmas/SaveFloat), through the training loops of C99, then C17; negation: the NaN models of C71 |
| C123 the README's basic use | `parseLibSVM`, `parseCSV`, `newMultiClass`, `accuracy`, `jsonMultiClass` | two numbers of at most 15 digits have a float64 strictly between their nearest float64s (Lemmas/Decimal), so C22, C25, C79 and C122 apply to every text of such numbers; texts by the grammar of C45 and Spec/Decimal; `strconv.ParseFloat` is a parameter with the law `ReadsDecimals` (correct rounding), with an instance; negation for fewer than 5 rows; the probability that the model works by the independence of the draws of different rounds (measure theory as in C110) |
| C124 rows that are never drawn | `newTreeD`, `classTree`, `trainRound`, `newMultiClass` | induction over the depth (a tree only reads its rows), then a relation between two runs of training that agree on the drawn rows, kept by every class step; law-free arithmetic |
| C125 the README's search | `crossValidation`, `grid`, `gridPoints`, `newMultiClass` | induction over the folds (every training set is a non-empty part of the data, so training returns by C22 and the accuracy by C79), then C51, C53 and C54; the 27648 points of the README by the sizes of the eight loops |
| C126 the README's gradient search | `gradientGrid`, `hybridGrid`, `GradStep`, `paramActs`, `fuzzOptions`, `crossValidation` | invariant of the executions of a gradient step (each goroutine reads its own parameter before it is assigned, so that a share grows at most by half in a step) with the bound \|rv x\| ≤ 2\|x\| for the rounding; induction over the steps of a search, with a bound on the shares that doubles in each; then C125 for every cross-validation. The surroundings of the search report what the cross-validations on the data return, if they return (`RealSearch`); such a search exists for all data and draws (`realSearch_exists`) |
| C127 the caller's memory | Model/Mem.lean: slices are references (array, offset, length) into a memory; `MemArgSort`, `DenseCol`, `SoftMaxDense`, the losses, `NewTree`, `NewMultiClass`, `PredictSingle`, `Accuracy` read and write through them | refinement: each function on the memory returns what the function on lists returns, and writes only its own buffers (a frame rule composes the steps); induction over nodes, classes and rounds with the invariant that every buffer has an array of its own |
| C128 model and results own their memory | as for C127, `ClassLabels` | the labels of a model lie in an array made by the training; trees hold no reference that prediction reads |
| C129 memory of cross-validation | Model/MemCV.lean: `fillDataBunch`, the sampler and `MultiClassCrossValidation` on references | refinement as for C127; copies lie in new arrays with different numbers |
| C130 goroutines on shared data | Model/MemConc.lean: computations of Model/Mem and Model/MemCV run step by step by goroutines with common arrays | a log of the arrays written shows that each computation writes only to its own; invariant over all interleavings: each goroutine is somewhere in its run alone; the steps left decrease; neg: the same Options with MinChildWeight < 1, Accuracy with a number of classes |
| C131 honest cross-validation | Model/CV.lean, Model/Stat.lean | the folds depend on the number of rows and the draws only; each model is a function of the rows outside its fold; drawing one label anew does not change a mean, so a guess that does not look at a label is right with the probability of the guessed label; limit: Grid with two points, all 16 labellings computed |
| C132 deep trees and conflicting labels | Model/MultiClass.lean, Model/Tree.lean | the leaves of deep regular trees are the groups of equal rows (C101), so the decrease of the loss in a round bounds the residual sum of each group (C112); the loss converges, so the sums tend to 0. The accuracy is compared with any function of the row group by group |
| C133 units in float64 | Model/Tree.lean, Model/MultiClass.lean, Lemmas/Units.lean | two runs on data ordered alike do the same comparisons and, because the sorting routine only compares, the same additions, so the trees differ only in thresholds; short decimals are no float64 neighbours, so the rounded means separate; multiplying by 2^k commutes with rounding away from the ends of the range. Limit: 4 mm against the threshold of 1 mm and 7 mm |
| C134 early stopping in full | Model/MultiClass.lean, Spec/EarlyRun.lean | invariant of the loops over classes and rounds: the variables `stopped`, `noProgress`, `prevloss` of a class are what its list of losses says (`HInv`), and the raw predictions are the scores of the trees in their places (`RawA`); uniqueness by induction over rounds and classes (`StoppedRun.agree`), which also carries C102 to models with early stopping |
| C135 regularization | Model/MultiClass.lean, Model/Tree.lean | value and gain of a node in exact arithmetic (C09, C11) with the gradients bounded by 1 and the Hessians from below, for every tree by the invariant of training (`trainRounds_trees`); the scores by adding up, the probabilities by a bound on softmax |
| C136 repeated rows | Model/MultiClass.lean, Model/Tree.lean | a simulation of the two runs: sums over the repeated rows are k times the sums, so values agree and gains are multiplied by k, the scan over sorted repeated values looks k times at each boundary, the loss is a mean; by induction over nodes, classes and rounds |
| C137 JSON texts | Model/JsonText.lean (`encoding/json`: the scanner, strings with escapes, struct decoding with case folding, encoding), Spec/Json.lean (the grammar) | the recursive parser is sound and complete for the grammar by induction on derivations and fuel; the fold over members is split into one fold per field; line by line the reader of models sees the same |
| C138 evaluation in parts | Model/Confu.lean, Model/MultiClass.lean | both are counts of labelled rows (C46, C25), and counts are invariant under permutation and additive over parts |
| C139 one label | Model/MultiClass.lean (`trainWith`: the training loop with the activation function as a parameter) | invariant of the rounds: the score matrix is one column of equal numbers; trees on equal targets have equal leaves (regular: C10 and the Newton update; xgboost: no split, since n²/(n+Lambda) is superadditive, C07 and C11) |
| C140 what Verbose prints | Model/Verbose.lean: the training loop again, with the list of messages (`TrainMsg`), and their text | forgetting the messages gives Model/MultiClass (homomorphism of folds); invariants of the loops over classes and rounds: a table of trees and losses (as in C134, early stopping on or off), and which message or small loss explains every stopped class; text by splitting into lines and fields |
| C141 what Verbose prints in searches | Model/VerboseCV.lean: the loops of `Grid`, `GradientGrid` and `HybridGradientGrid` again, as lists of headers and points (`LoopItem`), with the list of messages (`SearchMsg`) and their text | forgetting the messages gives Model/CV and Model/Grad; invariants of the loops over items (kept best = last line, lines increase, line in relation with the last header); the nested loops are segments of one header and its points |
| C142 what cross-validation logs | Model/LogCV.lean: `CrossValidationSamples` and `MultiClassCrossValidation` again, with errors as values and the messages (`CVLog`) and their text | forgetting gives Model/Stat and Model/CV; induction on the number of folds tried and on the folds; text by splitting into lines and words |
| C143 the example program | Model/Example.lean: `main` of examples/basicboost.go as one computation (file, two trainings, `Grid`, `GradientGrid`, classification), its output a record | the pieces are C123, C125 and C126; composed they say exactly when the program ends and what it prints. It panics on files with all labels different and on files with 4 to 6 rows (`C143_violated`, `C143_few_violated`, `C143_small_violated`) |
| C144 one label, few rows | the models of C54, C51 and C56, nothing new | the share of test rows that are right is 1 in each fold with a model, so the accuracy is 100 k / n exactly as the floats compute it; the first point of a search decides if options are returned. With fewer than MinSample + 2 rows no fold has a model (`C144_few_violated`, `C144_grid_violated`) |
| C145 what the example writes | Model/ExampleText.lean: `main` of examples/basicboost.go again, with the text on the standard output | forgetting the text gives Model/Example; the lines of the trainings and searches are those of C140 and C141, put together with the lines of `main`. The list of accuracies after `Grid` is always empty (`C145_violated`) |
| C146 no split, constant model | `newTree`, `newMultiClass`, `accuracy` in any arithmetic with the order of floats | a split is a candidate of the scan, which has `MinChildWeight` rows on each side and two values that differ; so without depth, with fewer than `2·MinChildWeight` rows or with equal rows the tree is a leaf, for every tree of the model (`newMultiClass_sampled`). |
| C147 no split, limit of many rounds | `newMultiClass` over the reals, models with 1, 2, 3, … rounds | all probabilities are equal (C146) and their sum tends to the number of rows of the label (C112), so each tends to its share; the argmax and the accuracy follow |
| C148 direction of a column | `newTree`, `newMultiClass`, `predictSingle` over an exact ordered field (models: the reals), two data sets related by `SameOrders` | every division of a node's rows by one data set is one by the other, perhaps with the sides exchanged; both trees take a best division (C07), so with unique best divisions (`UniqueBest`) nodes with the same samples correspond, by induction on the path; equal samples give equal values, and C03/C04 give the predictions; models: induction over rounds and classes with `C70_fitted`, equal predictions give equal gradients (`model_same`); ties: `C148_violated` |
| C149 signs of columns, new rows | as C148; `changeSigns` for the second data set, rows that need not be in the data | the threshold of a split is the middle between two neighbouring values of its rows (`split_between`); with a unique best split (`UniqueCut`: feature and division) the second tree has the same features, thresholds with the sign of their column and exchanged children (`mirror_node`), so a row that is not exactly at a threshold goes to the same leaf, by induction on the tree (`mirror_reach`); models: as C148 with a relation of trees that also agree on the new row (`real_model_same`); at a threshold: `C149_violated` |

No property is considered inexpressible.

## 3. Trusted base

* Lean 4.33.0's kernel and Mathlib. No axioms are added; no `sorry`, `native_decide`, `bv_decide`, `implemented_by` or `unsafe`.
  Every theorem depends on a subset of `propext`, `Classical.choice`, `Quot.sound` (list in section 6).
* `decide +kernel` is used only on closed terms (concrete witnesses and examples); the kernel evaluates them.
* That the definitions under `Verif/Model` mean what the cited Go lines do. Nothing checks this mechanically: the Go code
  was read as text, and was not run.
* That the packages used by boo behave as modelled: `sort.Sort` (the `GoSort` laws), `math/rand/v2` (any draw in the documented
  range), `encoding/json` (`JCodec` laws: what is encoded is decoded, a line has no newline, a proper prefix of a line does not decode;
  `goJSON` is a hand-written model of the package that meets them, C137),
  `strconv`/`fmt` for floats (`FText` laws), `encoding/csv` (modelled by hand with `TrimLeadingSpace`, quotes included; C45),
  `bufio` line reading (the text as a list of lines), gonum's `mat.Dense`
  (row-major arrays with shape checks), `floats.Sum`, Go's memory model restricted to atomic field accesses.

## 4. Parts of the code that are modelled

| Go file | Lean | not modelled |
|---------|------|--------------|
| tree.go | `Model/Tree` (trees, options, scan, prediction, printing, importance), `Model/MultiClass` (Feats), `Model/Strings` | `debug` |
| xgb.go, multiclass.go | `Model/MultiClass`, `Model/Serve` (concurrent use), `Model/MemConc` (goroutines with shared arrays), `Model/Mem` (slices as references, also for the parts of tree.go and utils that training uses), `Model/Verbose` (what training prints) | date and time in the log, what a run that panics prints |
| options.go | `Model/Options`, `Model/Strings` | |
| xjson.go, utils/json.go | `Model/Json`, `Model/JsonText` (`encoding/json`), `Model/Print` | the samples in a node (never written by `JSONMultiClass`), the test writer |
| utils/loss_acti.go | `Model/Loss` | – |
| utils/math.go, utils/sorter.go | `Model/Math`, `Model/Print` | – |
| utils/stat.go | `Model/Stat`, `Model/MemCV` (slices as references) | – |
| utils/libsvm.go, utils/csv.go | `Model/Data`, `Model/TextData`, `Model/Strings` | opening files |
| confu/confu.go | `Model/Confu` | opening files |
| examples/basicboost.go | `Model/Example`, `Model/ExampleText` (the printed lines) | what is printed before a panic |
| cv/cv.go | `Model/CV`, `Model/WriteBest`, `Model/VerboseCV` (what the searches print), `Model/LogCV` (what cross-validation logs) | date and time in the log, failures to create or write a file |
| cv/grad.go, cv/hybrid.go | `Model/Grad`, `Model/GradChan`, `Model/VerboseCV` | – |

Also not modelled: performance, memory, integer overflow (but `int(f)` gives `-2^63` for floats that are no int64, as on amd64, and
`Props/IntWrap` has the loops over ints with overflow), data races as undefined behaviour (each shared access is one atomic
step and accesses are sequentially consistent), panics of goroutines (a panic in a worker ends the whole program; the theorems on
schedules are about executions without one), file-system errors other than a failed or short read.

## 5. Where the code and the properties disagree

Each of these is a theorem with a witness (`…_violated…`).

* C06/C12: the split threshold is `(a+b)/2` in float64; for adjacent floats it may round to `b`, and for large values it overflows.
  `MinChildWeight` is used as `int(MinChildWeight)`, which for `2^63` and more, infinities and NaN is negative on amd64, so that the
  limit has no effect (`C06_violated_weight`).
  A child can then get fewer rows than checked, or none, and an empty child panics.
* C08: `TreeOptions.clone` does not copy `AllowedColumns`, so column subsampling acts on the root only.
* C15: `Feats.Add` looks the feature up before it takes the lock: two goroutines can add two entries for one feature.
* C17/C18: the reader of models drops the last round and the kind of boosting; an unknown activation name is not reported.
* C20: after a class is stopped early the trees of later rounds are stored one class too low, so that prediction adds them to the wrong class.
* C21: `Rounds` and `Classes` return each other's value. C22: with `MinSample >= 1` (which `Check` demands) and no row
  subsampling no round is ever executed.
* C23/C24: `exp` overflows for large scores: NaN probabilities. C24: a longer buffer is summed over its old content.
* C26: a negative fraction makes `SubSample` panic. C27: when round 0 is skipped, the first loss is compared with the initial 0 and all
  classes are stopped.
* C28: NaN passes `Check`; the defaults of regular boosting do not. C29: `Equal` is not symmetric nor reflexive; `Clone` drops fields.
* C34: division by zero for fewer than two rows. C36: folds have no keys. C38: column index equal to the number of columns is accepted.
* C42: `LibSVM()` ends without a newline and the reader drops such a line. C44: blank lines panic the libSVM reader.
* C49: the results of `TopNForLabelM` are the buffers. C50: a last line without newline is dropped, read errors are not reported.
* C51: the points after the last full batch of `NCPUs` are not collected; `NCPUs = 0`, the default of `DefaultGGridOptions`, panics.
  C52: after an error some worker stays blocked. C53: float loops miss the upper bound or do not end.
* C54: models without rounds count as accuracy 0. C55, C57–C61, C69: see `Props/Grad.lean`, `Props/GradSearch.lean`.
* C64: `log(p*(s-p))` instead of `log(p/(s-p))`. C65: `NewTree` stores row indexes in the caller's options. C66: short name lists panic.
* C71: with a single label, or in binary64 once a probability rounds to 1, regular boosting divides 0 by 0: NaN predictions.
  C74: a large `BaseScore` overflows `exp`. C79: a model without rounds panics on every prediction.
* C73: in binary64 the tree depends on how `sort.Sort` leaves ties and on the order of the rows (rounded sums), and a change
  of units by a power of two can destroy a split (overflowing midpoint).
* C82: in binary64 a larger `Gamma` can change the feature a node is split on. C83: a column of NaN makes `NewTree` panic (its rows
  compare as different, so cuts in it are considered, and then no row is at most the threshold).
* C84: in binary64 adding a constant (10⁸) to all targets can change the feature a regular tree splits on.
* C85: each time a model is saved and loaded it loses a round (C17); after as many times as it has rounds it cannot predict.
* C89: `GradientGrid` never sets `EarlyStop`, so all its models use 10 (xgboost) or 0; `Options.Clone` does not copy `EarlyStop`,
  so both gradient searches continue with early stop 0 after a step that made the accuracy worse.
* C91: a file written by `WriteBest` and read back lacks the last round of the model (C17). The gradient searches write the model
  of the options measured, but return options changed afterwards (C57). If `JSONMultiClass` fails, an empty file is left and the
  error is dropped.
* C88: `Print` shows each test as `Feature f < threshold`, but prediction goes left on `<=`: a row with exactly the threshold is
  predicted by the other branch than the printed one (`C88_violated`). The printed thresholds have three decimals.
* C93/C94: in binary64 the chosen split is not always the best one (targets 1, 2^53, 2^53, 0: the sums lose the 1)
  and a node's value is not always the mean (three targets 0.1 have a mean above 0.1); both hold up to the explicit
  bounds of C93 and C94, for every order of the additions of `floats.Sum` (gonum's amd64 kernel adds several partial sums, which
  changes the last bits; the counterexamples add from left to right).
* C95: the classes of a round are trained one after the other, in the order in which the labels are met first, and the
  probabilities are renewed after each. With three classes the order of the rows decides which class is predicted
  (`C95_violated`), also in exact arithmetic. With the order of the labels kept, or with
  two labels, the order of the rows does not matter.
* C102: when two columns offer equally good splits the one with the lower number is used, so exchanging two columns that agree on
  the training data changes the predictions for new rows (`C102_violated`). Column subsampling draws for positions
  (`C102_violated_columns`).
* C92: the text of a JSON node has no separator between the value and the word `Threshold`, and leaves out the split feature;
  `PrintDenseMatrix` panics on a matrix without rows.
* C104: with neighbouring float64 values a child can have fewer than `MinChildWeight` rows (C06), so a tree can have more leaves than
  rows / `MinChildWeight`. C105: the mean of equal targets can be rounded above them (three times 0.1).
* C109: `GradStep` with a channel and without central differences returns the options it was given without sending
  anything when its cross-validation fails, so a receiver waits forever. What it sends otherwise is made from a clone, so
  its EarlyStop is 0 (C109_silent, C109_early_stop).
* C116: the doc comments of `PredictSingle` and `PredictSingleClass` promise to use a slice that is given; it is never looked at, and
  `Accuracy` makes the slice `predtmp` for nothing. Since `Accuracy(D, classes)` assigns this field without a lock, two concurrent calls
  with a number of classes are a data race for Go's memory model, although the results do not depend on it (C115).
* `Grid` returns nil options together with a nil error when no cross-validation has a positive accuracy (C120, also C51);
  examples/basicboost.go uses them without a check (C143_violated); on a file of 4 rows it measures the accuracy of a model without trees and panics (C143_few_violated).
* Regular boosting with the default `MSELoss` can return a model with NaN in its leaves; `JSONMultiClass` then fails, so the trained model cannot be saved
  (`C122_violated`, `C122_violated_one_label`).
* The basic use shown in the README (read a file, train with `DefaultOptions`, print `Accuracy`) panics for every file with fewer than 5 rows: `MinSample` is 5, so
  every round is skipped and the model has no trees (`C123_violated`).
* Early stopping looks at the loss over all rows, also those that no round has drawn, so a row that no tree was grown from can
  still change the model (`C124_early_stopping`; without early stopping it cannot, C124).
* README, search example: it uses `best.Rounds` after checking only `err`. When no point has a positive accuracy (for example when all labels differ) `Grid` returns nil options and a nil error, and the example dereferences nil (`C125_readme_violated`). The same happens after its `GradientGrid` (`C126_violated`). With the learning rates 0.1 to 0.3 in steps of 0.1 the example never tries 0.3 (`C125_readme_points`), and the accuracies that it prints are always empty.
* C130: `NewMultiClass` writes `MinChildWeight = 1` into the options of the caller if it is less than 1 (xgb.go:36-38), so that goroutines that
  train with the same options race (`C130_options_violated`). `Accuracy` with a number of classes replaces the field `predtmp` of the model if it
  is shorter (multiclass.go:38-40), so that two such calls race (`C130_classes_violated`); the results do not depend on it (C115).
* A threshold is the rounded mean of two values, so a row that is not in the data can change sides when decimal units change: between 1 mm and 7 mm the row 4 mm goes left, between 0.1 cm and 0.7 cm the row 0.4 cm goes right (C133_new_row_violated).
* C137: the reader of models looks for the words ROUND and CLASS anywhere in a line (xjson.go:66-78), so a node line with an ignored member that contains ROUND ends the round and its tree is lost without an error (`C137_words_violated`). A file that is only `{}` or `null` is read as a model without labels (`C137_empty_accepted`).
* README.md:45 suspects that regression is possible "by giving one class and an activation function that does nothing", and says that the activation function can be changed. `NewMultiClass` has no such option (`utils.SoftMaxDense` is fixed; only `ProbTransformMap` of the JSON functions can be extended, for a model that is already trained), and the targets are one-hot columns, which are all 1 for one label: the trained model gives all rows the same score, whatever the activation function (C139).
* With `Verbose` and `EarlyStop`, a class that stops for lack of progress is logged (xgb.go:131-133), but one that stops because its loss is at most 1e-6 is not (xgb.go:115-118 leaves the loop body before the message): it just has no more lines (`C140_violated`).
* With `Verbose` and `NCPUs` of 2 or more, `Grid` prints the header of a combination when it starts its runs and a new best accuracy when it collects them (cv/cv.go:186, 206-216, 250), so the line of a new best accuracy can stand under the header of a later combination (`C141_grid_violated`). The options printed with a new best accuracy by the gradient searches are a snapshot; the ones returned are changed by the next step (`C141_search_violated`, see C57).
* `MultiClassCrossValidation` logs "The %d-th fold didn't produce a boosting ensemble" with the number of folds `n` in place of the number `i` of the fold (cv/cv.go:39), so that the log does not say which fold it was (`C142_violated`).
* C144: cross-validation counts a fold whose training part has fewer than `MinSample` (5) rows as if all its predictions were wrong. So with 4 to 6 rows every accuracy is 0
  and `Grid` returns nil options without an error, also if all rows have the same label (C144_few_violated, C144_grid_violated); the example program then panics
  (C143_small_violated).
* C145: examples/basicboost.go:40 prints "All accuracies:" after `Grid`, and the list is always `[]`, since `Grid` never fills it (cv/cv.go:170, 228).
* Ties between divisions of a node are decided by the order of the values: changing the sign of the only column of three rows with the
  targets 0, 1, 0 changes the predictions for the first and the last row (`C148_violated`).
* A value exactly at a threshold goes to the left (tree.go, `PredictSingle`). After a change of the sign of the column the same row goes to the
  other leaf: the predictions differ (`C149_violated`), although the best split is unique.
* Doc comments: `TopNForLabelM` returns indexes, not labels.

## 6. Axioms of each theorem in the manifest

* `propext, Classical.choice, Quot.sound`: C01_depth, C01_height, C02_leaf_iff_no_children, C02_predict_total,
  C02_predict_total_rows, C03_leaves_partition, C03_exactly_once, C04_training_row, C05_branches, C06_exact, C06_weight,
  C06_violated_weight, C06_binary64_left_partial, C06_binary64_grid_partial, C06_binary64_partial, C06_decimal_partial,
  C06_violated_binary64, C06_violated_overflow, C07_xgb_split, C07_xgb_leaf, C07_regular_split, C07_regular_leaf, C08_violated,
  C08_root_partial, C08_depth_one_partial, C09_value, C09_value_optimal, C10_node_mean, C10_predictions, C100_more_rounds,
  C100_monotone, C100_guess, C101_rows, C101_accuracy, C101_probability, C101_xgboost_xor, C101_binary64_rows,
  C101_binary64_accuracy, C102_tree_partial, C102_model_partial, C102_stopped_partial, C102_violated, C102_violated_columns,
  C103_rows, C103_accuracy, C103_trees, C103_gamma, C104_depth, C104_rows, C104_model, C104_model_rows,
  C104_rows_binary64_partial, C104_violated_binary64, C105_regular, C105_xgb, C105_binary64_partial, C105_violated_binary64,
  C106_trees, C106_confidence, C106_mse, C107_work, C107_error, C107_strikes, C108_row, C108_accuracy, C109_kept,
  C109_answer_partial, C109_silent, C109_early_stop, C11_gain, C11_objective, C110_uniform, C110_binary64, C110_rounds,
  C111_returns, C111_share, C111_assignment, C112_frequencies, C112_groups, C112_rate, C113_learns, C113_small_gamma, C113_rate,
  C114_best, C114_limit, C115_concurrent, C115_slices, C115_ends, C115_completes, C115_trained, C116_violated, C117_xgb_tree,
  C117_regular_tree, C117_model, C117_trained, C118_tree, C118_model, C118_near_tree, C118_near_model, C118_beyond, C119_search,
  C119_gradientGrid, C119_hybridGrid, C12_exact, C12_binary64_grid_partial, C12_binary64_partial, C12_decimal_partial,
  C12_violated_binary64, C120_unseen, C120_folds, C120_bound, C120_distinct_exact, C120_distinct_binary64, C120_grid_binary64,
  C121_xgb, C121_regular, C122_sqerr_partial, C122_mse_partial, C122_default_partial, C122_violated, C122_violated_one_label,
  C123_libsvm_partial, C123_csv_partial, C123_libsvm_regular, C123_train_partial, C123_train_regular, C123_read_libsvm,
  C123_read_csv, C123_violated, C123_probability, C124_tree, C124_model, C124_returns, C124_early_stopping, C125_cv_returns,
  C125_grid_partial, C125_readme_points, C125_readme_partial, C125_violated, C125_readme_violated, C126_step,
  C126_search_partial, C126_readme_partial, C126_violated, C127_train, C127_tree, C127_predict, C127_accuracy, C128_train,
  C128_labels, C128_predict, C129_values, C129_copies, C129_labels, C129_shared, C129_cv, C130_schedule, C130_ends, C130_calls,
  C130_in_order, C130_train, C130_options_partial, C130_options_violated, C130_classes_partial, C131_folds, C131_unseen,
  C131_noise, C131_uniform, C131_grid_optimistic, C132_frequencies, C132_prediction, C132_accuracy, C133_increasing_tree,
  C133_increasing, C133_decimal_tree, C133_decimal, C133_pow2_tree, C133_pow2, C133_new_row_violated, C134_training, C134_model,
  C134_unique, C134_predicts, C135_tree_values, C135_tree_gamma, C135_steps, C135_lambda, C135_limit, C135_gamma, C136_model,
  C136_copies, C136_regular, C136_tree, C136_weights_needed, C137_reads_node, C137_reads_meta, C137_writes_node,
  C137_writes_meta, C137_same_model, C137_words_violated, C137_empty_accepted, C138_matrix, C138_order, C138_accuracy,
  C138_equal_parts, C139_constant, C139_nan, C139_any_activation, C14_tree, C14_single_leaf, C14_trained, C140_model,
  C140_quiet, C140_losses, C140_last, C140_stopped_partial, C140_announced, C140_text, C140_log, C140_violated, C141_same,
  C141_quiet, C141_grid_best, C141_grid_heads, C141_grid_under_partial, C141_search_best, C141_search_heads, C141_search_under,
  C141_text_grid, C141_text_search, C141_grid_violated, C141_search_violated, C142_same, C142_log_partial, C142_error,
  C142_text, C142_violated, C143_main_partial, C143_violated, C143_few_violated, C143_small_violated, C144_one_label_partial,
  C144_few_violated, C144_grid_partial, C144_grid_violated, C144_search_partial, C145_same, C145_output_partial, C145_violated,
  C146_tree, C146_model, C146_accuracy, C146_default, C146_six, C147_frequencies, C147_prediction, C147_accuracy,
  C148_xgb_partial, C148_regular_partial, C148_signs_xgb_partial, C148_signs_regular_partial, C148_model_partial,
  C148_two_values, C148_violated, C149_regular_partial, C149_xgb_partial, C149_model_partial, C149_two_values, C149_violated,
  C15_progress_partial, C15_sums_partial, C15_unique_partial, C16_round_trip, C16_error, C16_ids, C17_read_back_partial,
  C17_writes, C17_predictions_partial, C17_violated, C17_unknown_name_violated, C18_regular_partial, C18_violated,
  C19_truncated, C20_partial, C20_no_early_stop_partial, C20_violated, C21_swapped_partial, C21_violated, C22_rounds,
  C22_requested_partial, C22_returns, C22_returns_binary64, C22_violated, C23_first_most_probable, C23_classesFromProbs,
  C23_raw_scores, C23_label, C23_violated_overflow, C24_long_buffer_violated, C24_distribution, C24_shift,
  C24_violated_overflow, C25_accuracy, C25_percentage, C25_binary64, C26_subSample, C26_returns_partial, C26_violated_negative,
  C27_off, C27_for_good, C27_reason_partial, trainH_exists, C27_violated, C28_check_float64_partial, C28_defaultX,
  C28_violated_nan, C28_defaultG_rejected, C29_equal_iff_partial, C29_equivalence_partial, C29_clone_partial, C29_violated_refl,
  C29_violated_symm, C29_violated_earlyStop, C30_gradient, C30_hessian, C30_mse_hessian, C31_mse, C31_zero_iff, C31_scratch,
  C32_normalization, C32_dense_sums, C33_folds, C34_number_partial, C35_terminates, C36_labels_partial, C36_violated,
  C37_history, C38_denseCol_partial, C38_addToCol_partial, C38_violated, C38_violated_add, C39_distinct, C39_matrix,
  C39_recover, C39_data, C40_sampleSlice, C40_sampleSlice_panics, C40_transpose, C40_transpose_twice, C41_long_buffer_violated,
  C42_read_back_partial, C42_newline_partial, C42_violated, C42_empty_panics, C43_round_trip, C44_csv_partial,
  C44_libsvm_partial, C44_violated, C44_names_violated, C45_libsvm, C45_csv, C45_csv_exact, C45_csv_grammar, C45_csv_unique,
  C45_libsvm_exact, C45_libsvm_grammar, C45_int, C46_matrix, C46_trained, C47_trace, C48_topN, C48_negative, C49_violated,
  C49_copy_partial, C49_perLabel, C50_violated, C50_read_partial, C50_simple, C51_best_partial, C51_best_divisible, C51_grid,
  C51_violated, C51_zero_cpus, C51_default_panics, C51_error, C51_no_accuracies, C52_schedules, C52_messages, C52_ends,
  C52_collected, C52_error_leak, C53_grid_exact, C53_int_loop, C53_float_loop_exact, C53_points, C53_bounds_binary64,
  C53_float_loop_binary64_partial, C53_binary64_violated, C53_violated_int64, C53_tiny_step, C53_grid_diverges, C53_size,
  C53_default_sizes, C54_cross_validation_partial, C54_error, C54_when_error, C54_range, C54_mean, C54_range_binary64,
  C54_violated, C55_exact, C55_partial, C55_violated_race, C55_violated_weight, C55_violated_nan, C56_accuracies, C57_violated,
  C57_partial, C57_accuracy_measured, C58_violated, C58_partial, C58_fixed_fields, C58_depth_partial, C59_exact, C59_partial,
  C59_one_send_partial, C59_returns, C59_loops_exact, C59_loops_default, C59_tiny_step, C59_violated_errors,
  C59_violated_regular, C60_violated, C60_violated_central, C60_starts, C60_sent, C60_moves_partial, C61_violated, C61_partial,
  C61_update_partial, C61_update_rounds_partial, C62_int, C62_midpoints, C62_starts, C62_mid_binary64, C62_binary64_violated,
  C63_fuzz, C63_options, C63_draws, C64_violated, C65_violated, C65_violated_panic, C65_fresh_partial, C65_same_size_partial,
  C66_violated, C66_print_partial, C67_print, C67_small, C68_search, C69_violated, C69_violated_general, C69_five_partial,
  C70_fitted, C71_real_partial, C71_violated_one_label, C71_violated_binary64, C71_before_binary64, C72_metadata,
  C72_importance_order, C72_default_kinds, C73_sort_partial, C73_sort_model_partial, C73_rescale_partial,
  C73_rescale_model_partial, C73_monotone_partial, C73_monotone_model_partial, C73_rows_xgb_partial, C73_rows_partial,
  C73_sort_violated_binary64, C73_rows_violated_binary64, C73_rescale_violated_binary64, C74_model_partial,
  C74_predictions_partial, C74_violated_binary64, C75_draws, C75_deterministic, C75_regular, C76_rename, C77_prefix,
  C78_verbose, C79_predict_partial, C79_accuracy_partial, C79_violated, C80_cut, C80_predict, C81_regular, C81_xgb,
  C82_prune_partial, C82_violated_binary64, C83_tree, C83_model, C83_nan_column_panics, C84_xgb_partial, C84_regular_partial,
  C84_violated_binary64, C85_file_violated, C85_repeated_violated, C86_tree, C86_model, C87_prefix, C87_unused, C88_readable,
  C88_follow_partial, C88_away_partial, C88_violated, C89_grid, C89_grid_point, C89_hybrid_partial, C89_violated_gradient,
  C89_violated_hybrid, C90_regular, C90_treeMethod, C91_grid_same, C91_grid, C91_grid_records, C91_gradient_records,
  C91_grid_off, C91_grid_error, C91_options_kept, C91_gradient, C91_gradient_off, C91_violated_read_back, C91_violated_gradient,
  C92_feats, C92_importance, C92_data, C92_options, C92_matrix, C92_matrix_injective, C92_node, C93_regular_split,
  C93_regular_leaf, C93_xgb_split, C93_xgb_leaf, C93_exact_violated, C94_mean, C94_weight, C94_exact_violated,
  sum_order_binary64, C95_same_class_order_partial, C95_two_classes_partial, C95_violated, C96_softmax, C96_model,
  expFloat_exists, C97_scores, C97_probabilities, C98_loss, C98_loss_zero, C98_underflow, C98_gradients, C98_hessian,
  C98_normalization, C99_sqerr, C99_mse, C99_default, C99_default_options

* `propext, Quot.sound`: C129_samples, C13_predict_rows, C13_predict_buffer, C13_unused_features, C130_classes_violated,
  C14_ensemble, sumUp_exact, C15_violated, C15_sequential_partial, C15_merge_partial, C16_same_use, C24_buffer,
  C24_short_buffer, C24_dense, C26_all, C28_check_partial, C28_valid_accepted, C31_shape, C32_buffer, C32_dense,
  C34_few_partial, C34_violated, C39_empty, C40_sampleMatrix, C41_argSort, C41_sorted, C41_memArgSort, C41_slice_swaps,
  C44_names_partial, C53_int64, C53_int_diverges, C64_computes_partial, C76_predictions, C76_accuracy, sum_order_exact

* `propext`: C38_reject_partial

* none: C53_float_diverges, C68_clone
