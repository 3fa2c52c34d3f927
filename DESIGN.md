# A Lean 4 model of lovit/soynlp, and what is proved about it

Layout (all under `lean/Verif/`):

* `Py/`    – the few Python primitives the code uses (strings, whitespace, split/strip, insertion-ordered
             dict, stable `sorted`, exceptions), each a small total function.
* `Model/` – the code, function by function. Every definition cites `file:lines` in /repo.
* `Spec/`  – small independent specifications used in theorem statements (edit scripts, occurrence counts,
             transposed relations, …). Nothing in `Spec/` refers to `Model/` helpers.
* `Proofs/`– helper lemmas.
* `Props/` – one file per property group: the property theorems (`Cxx_…`) and, next to each, an `example`
             showing a concrete non-trivial instance of its hypotheses.

## Trusted base

* Lean 4.33.0's kernel; the axioms `propext`, `Classical.choice`, `Quot.sound` at most.
* The reading of the Python source into the definitions of `Py/` and `Model/` (nothing is executed here).
* Python `str` = `List Char` (Unicode scalar values; lone surrogates are excluded). `len`, slicing and `==`
  are per code point, as in CPython 3.
* Python `dict` = insertion-ordered association list without duplicate keys; `set`/`defaultdict` iteration
  order is never relied upon: where the code iterates a set, theorems quantify over the order or state only
  order-independent facts.
* `sorted(key=…)` = stable merge sort (the stable insertion sort `Py.sorted` (Py/Sort.lean)).
* Numbers: Python ints are `Nat`/`Int`; floats are modelled by exact ordered fields (`Rat` or `ℝ`).
  Rounding, overflow and NaN of IEEE floats are **not** modelled.
* Exceptions are values of `Except PyErr`.
* Regular expressions are modelled by the scanning function the pattern denotes (character-class runs etc.);
  `\w`, `\d` beyond ASCII and Hangul are predicate parameters. The `re` engine is trusted to implement `Spec/Regex` (pattern syntax and backtracking search); that the model's scanners do what the source's pattern literals mean there is proved (C81).
* Files are lists of characters / lines; encodings, partial writes, OS errors are not modelled.
* `print`, progress bars, memory statistics (`psutil`), and `verbose` output are not modelled, except where
  they can raise (noted at the definition).

## Plan per property

| id | model | proof |
|----|-------|-------|
| C01,C02 | `Model/Hangle` compose/decompose with 0xAC00 arithmetic and the three jamo tables | arithmetic (`omega`) for all code points, table facts by `decide +kernel` on the entire finite tables |
| C03 | `Model/HangleEncoder` index tables, `_normalize`, `sent_to_onehot`, `onehot_to_sent` | induction over the sentence |
| C04 | `Model/Hangle.normalize` | induction; generic filter/collapse lemmas |
| C05,C06,C07 | `Model/Distance` row-by-row DP exactly as in the code | DP rows = recursive distance on prefixes; recursion = minimum over edit scripts (Spec/Edit); metric laws from scripts. C06's naive form is violated – negation with witness; both argument orders characterised exactly |
| C08 | `Model/Distance` jaccard (Rat), cosine (ℝ) | finset cardinalities; Cauchy–Schwarz |
| C09–C12 | `Model/Normalizer`, `Model/LRSent` | as C04; run-length lemmas for C10; C11's naive form violated – negation, and the exact rewriting (Spec/Emoticon) |
| C13 | `Model/LTokenizer` | sort/argmax lemmas |
| C14,C15 | `Model/MaxScore` | loop invariant over remaining candidates; `GreedyPick` (best span left, drop overlaps) and the gaps determine the output |
| C16,C17 | `Model/RegexTokenizer` | losslessness for any non-empty findall; class purity for the concrete patterns |
| C18,C19,C20 | `Model/NounTokenizers`, `Model/MaxLR` | induction; C20's naive form violated – negation, spelling up to one repeated piece, never ends in R |
| C21–C23,C28,C24–C27 | `Model/EojeolCounter`, `Model/LRGraph` | refinement to count functions, invariants over operation sequences |
| C29 | `Model/Corpus` | induction over lines; violated for the limit 0 – negation + partial |
| C30–C32 | `Model/WordExtractor` | refinement to occurrence counts; monotonicity invariant |
| C33 | `Model/Bigram` | refinement to adjacent-pair counts |
| C34–C36 | `Model/Vectorizer` | induction |
| C37 | `Model/WordContext` | double sum |
| C38–C40 | `Model/Dictionary`, `Model/Tagger`, `Model/Template` | invariants over operations; greedy selection lemmas |
| C41–C44 | `Model/Lemmatizer`, `Model/Conjugation` (both functions in full, every rule) | case analysis over rules, per-rule inversion |
| C45–C49 | `Model/NounV1`, `Model/NounV2`, `Model/NounPost` | conservation lemmas over folds |
| C50 | `Model/Predicator` (rule_classify, set updates) | partition lemma |
| C51, C52 | `Model/RegexTokenizer`, `Model/NounTokenizer` | the naive forms are false of the code: negation with a witness, and the exact rule (pattern matches; iff for whole eojeols) |
| C53 | `Model/WordExtractor` `extract` | fold over the scored words; removal of sub-words as a fixed relation |
| C54 | `Model/NounV2` `train_with_*`, `_batch_predicting`, `extract` | conservation of eojeol counts under claiming (`Proofs/Claim`), uniqueness by induction on word length |
| C55 | `Model/NounV1`, `Model/NounV2` feature files | fold over lines |
| C56, C61 | `Model/Predicator`, `Model/PredTrain` | claiming lemmas again; set order as a parameter |
| C57 | `Model/Conjugation` against `Spec/Conjugation` (the rules of a grammar book as an inductive relation, with the code's deviations marked) | rule by rule equivalence, all syllables |
| C58 | `Model/ConjStem` | the same for `_conjugate_stem` |
| C59 | `Model/Eomi` | refinement to sums over the eojeol table |
| C60 | `Model/Stem` | the same |
| C62 | `Model/MaxLR` (MaxLRScoreTokenizer) against `Spec/LRTokens` | greedy selection lemmas |
| C63 | `Model/Postagger` evaluator | exact values of the score |
| C64 | `Model/WordExtractor` | counts of adjacent characters from the corpus (sentences read as circles) |
| C65 | `Model/Conjugation` lemma_candidate_chat | case analysis |
| C66 | `Model/WordExtractor` entropy | Gibbs' inequality (log x <= x - 1) over the neighbour counts of any trained state |
| C67 | `Model/Pmi` (sparse matrix = list of entries, reals), `Spec/Pmi` | entrywise membership; sums exchanged |
| C68 | `Model/WordExtractorIO` (pickle trusted) | field by field |
| C69 | `Model/NewsPos` (`extract`, all passes), `Spec/PosTags` | each pass as an equation on counters (`Facts`), then case analysis |
| C70 | same | invariant `Inv` over the passes: masses of eojeols; exact counts (`Facts.cntA/V/N`) carried through the passes, then translated to the specification (`Proofs/NewsPos7`) |
| C71 | same | `compOf` / `lemmatize` characterisations, `Facts.entryA/V` |
| C72 | same, `stemToAdverb` | `compoundOf_error_iff`, `parseCompounds_error_iff`; totality of the other passes; concrete witnesses for the failing and the repeated call |
| C73 | `Model/ChatPos` (the overridden passes) on top of `Model/NewsPos` | the chat pass is a `CompoundStage`, so `Facts` applies |
| C74 | same | `lemmaSum` equations for wrong stems and endings |
| C75 | `TokNorm` (tokenizer/_normalizer.py); `\w` a parameter, regex `(\w{k})\1{3,}` as a greedy left scan | relational spec `Unfolded`/`Shortened` (Spec/TokNorm), existence + uniqueness by induction |
| C76 | same | width-1 pass equals run-length substitution; lengths and fixed points by induction on `Shortened` |
| C77 | `Model/NewsNoun` `train`, `Spec/NewsNoun` (words counted one occurrence at a time) | folds over the counter refined to counts of occurrences |
| C78 | same, `predict` | exact equation with occurrence lists, then bounds on means and shares |
| C79 | same, `extract` with every filter | each filter equivalent to its reading in `Spec/NewsNoun`; the loops as a deterministic `Scan` relation |
| C80 | same | the comparison with an integer frequency; inversion of errors |
| C81 | `Spec/Regex`: a parser for the pattern syntax and the backtracking semantics (all matches at a position, in engine order) | the literals are parsed in the kernel; greedy runs, optional parts, alternatives and back references by induction on the text |
| C82 | `Model/NewsTrain`: the composition noun extractor → predicator extractor → part-of-speech extractor, dictionaries as parameters | instantiates C54, C56, C59, C61 for the calls made, then C69–C74 |
| C83 | `Model/EojeolPattern`: train, with the progress messages and the loop variable they clobber | counting lemmas over the cuts of a token; nested-dictionary folds |
| C84 | save and load as text files | parse of what is written; invariant `Writable` of trained graphs |
| C85 | `Model/Utils`: sort_by_alphabet as text → text, check_dirs as the directory it would create, most_similar over any distance and any argsort | stable sort lemmas; permutation of indices |
| C86 | `Model/Loaders`: the loaders as functions of a text; `Data/*`: all rows of the five packaged files, generated by tools/gen_packaged.py | loaders by induction over the lines; a kernel-checked pass over all rows, then C43, C58 and C82 for the pairs and the corpora |
| C87 | `Model/Postagger`: EojeolTemplateMatcher, SimpleEojeolEvaluator with all defaults; `Spec/EojeolTagger`: the priority list | compounds = shortest-first cuts by induction; scores of each kind of candidate; the order of the candidate list; then by cases on the chosen candidate |
| C88 | `Model/Postagger`: LREvaluator.evaluate, LRTemplateMatcher with all defaults; the scores may be rounded by up to 1/100 (so floating point is covered) | the score as an inner product; default scores by cases on tags; C39_selection |
| C89 | `Model/LRHeap`: several LRGraph objects, `_lr` by reference into a heap of dicts | simulation: each separate object is the one-object model run on its own calls; invariant of the shared pair |
| C90 | `Model/Sources`: list, file corpus or one-pass iterator, `len` and iteration with the object afterwards | case analysis over C29, C34, C35; header-only file via `fileLines` |
| C91 | the models of C45, C54, C56, C59; histories as lists of calls | induction over calls; congruence of `extract` in the fields it reads; C56's exact result applied twice |
| C92 | `V2.Input`, `train`, `trainExtract`, `V2Heap` (several extractors on one graph, calls that do not raise); graphs as in C24 | states of the routes compared field by field with C26 (graph to counter); the kept original and the limits are invariant under every step of the extraction |
| C93 | `Pred.Input`, `count`, `train`, `trainExtract` | routes by unfolding; the end-to-end statement chains C56 (counting), C61 (learning) and C56_extract_any (readings, any stems) |
| C94 | `V1.trainExtract` | the stored row of a word is the counted list of right parts in the corpus; sums over the row become sums over eojeols; then C45_extracted and C45_frequency |
| C95 | `NounPost.postProcessingLogged`, `V2.extractLogged`, `Eomi.extractLogged` (file = decoded text) | induction over the steps: removed words and kept keys are a permutation of the keys before; sorting lemmas; case analysis of `extract` |
| C96 | `Hits`: `train_hits` up to the first use of the undefined `self`, exact numbers, sums over sets | by cases for all calls; for trained graphs from the exact description of training (C83): which of the possible exceptions |
| C97 | `PredHeap`: sets of endings and counters by reference, several extractors, calls that do not raise | invariant (references apart, counters owned) and a simulation between the whole history and the history of one object's own calls |
| C98 | any prefix of the text `save` writes, then `load` (cuts inside a UTF-8 character not considered) | the rest is k full lines and a cut one; a cut decimal number is the number divided by a power of ten; load as a fold over lines |
| C99 | `Feed`/`Interrupted`: every trainer on a corpus object given by its length and what each reading hands out before it fails | direct from the order of the assignments; for `WordExtractor` the fold over `a ++ b` splits, the index only matters modulo `num_for_pruning`; for `LRNounExtractor` C45 generalised to foreign cohesion scores |
| C100 | `V2.extractLeft`: `extract` with every attribute written where the code writes it, returning the state also when it raises | `C100_same` ties it to `V2.extract`; `C100_kept` by following the steps (same origin and limits through batch, compounds, cover); frozen graphs from the batch lemmas of C54, which only need the consistency of the graph |
| C101 | `Calls`: `__call__` and `tokenize` of every tokenizer with their options, returning flat or per-eojeol results | ties to C13–C18, C62 through the per-eojeol functions; raw entries by following candidates through removal, scoring, choice and post-processing |
| C102 | no new model: the whole pipelines of C94, C54, C53/C64, C33, C93, C34 run on two permutations of the sentences with two enumerations of every set | each exact characterisation speaks about counts only, and counts of permuted lists agree; the table of C54 is unique; findings by evaluating two orders of a concrete corpus |
| C103 | no new model: two runs with ordered thresholds | from the exact characterisations C21, C33, C34, C53, C54, C67, C94: which conditions are monotone in the threshold and which are not; findings by evaluation |
| C104 | every model definition with optional arguments | the call without them equals the call with the values of the Python signature written out; by unfolding (these theorems pin constants, they have no depth) |
| C105 | Model/Trained: is_trained of LRNounExtractor_v2, EomiExtractor, Bigram; histories of calls with what a raising call leaves | induction over the history; the counts of C33 for Bigram |
| C106 | the counting models of C21, C26, C30, C33, C77 | the exact counts of those properties, additive over a cut of the corpus |
| C107 | the counting models of C30, C33, C64, C78 | exact counts scale by k; entropy, ratios and real powers are unchanged by a common factor |
| C108 | Model/DictHeap: dict objects, containers and Dictionary objects of one program; caller's changes | ownership and frame invariants over programs; exact candidates in any state |
| C109 | Model/TagDebug: the debugging output of SimpleTagger.tag | induction over the words; the candidates of C39 and C40 |
| C110 | the tokenizers, taggers and counters as they are: two texts joined by whitespace | split of a joined text; `mapM` of an append; the exact counts of C21, C26, C30, C33, C77 |
| C111 | the tokenizers and template matchers: dictionaries that agree on the pieces of the text | congruence of every look-up; the loops bounded by the longest word are extended to the end of the eojeol |
| C112 | the tokenizers applied to their own output | RegexTokenizer: every token is a whole match of a pattern or has no match, kept by the later patterns because their characters are disjoint; MaxScoreTokenizer: from C15 the token outranks its own parts; chains of nouns are unique; the best cut of a left part is the left part |
| C113 | the tokenizers and the taggers' selection under a rescaling of the scores | strictly increasing functions preserve and reflect every comparison the code makes; sorting commutes with the map; the best cut of C13 is invariant under affine maps that also scale the tolerance |
| C114 | the character functions on arbitrary objects (`Model/HangleArgs.lean`), `Lemmatizer.candidates` | case analysis on the object; reduction to the functions on characters and C01, C02. (The functions of soynlp/ner all raise TypeError at once, `raise NotImplemented`: nothing to prove) |
| C115 | tokenizers and template matchers with two tables or dictionaries | the greedy choice of C15 under the new ranking is a greedy choice under the old one when nothing picked was raised, and that choice is unique; the same argument with the best cut of C13 and the noun chains of C18; candidates by C40 |
| C116 | the statistics, score tokenizers, vectorizer, bigrams and distances on renamed inputs | a dictionary with its keys renamed by an injection commutes with get, set, add and filters by value; each function is then followed structurally (folds by induction, `sorted` through `Py.sorted_map`, `split()` character by character) |
| C117 | Model/TagScore: LREvaluator of postagger/_lrtagger.py, over real numbers | mapM of the scores is total exactly on the domain of log; the score is rewritten to a formula; stable sort by filter classes |
| C118 | WordExtractor.train on two corpora that agree on the sentences mentioning a word | the part of a table whose keys satisfy a predicate commutes with counting and pruning; keys of interest only come from sentences of interest |
| C119 | distances, normalisers and counters on reversed input | scripts, runs and blank-joined pieces reverse; the exact counts of C21, C30 and C33 |
| C120 | histories of counter and graph calls with a save and load at any points | simulation: same entries up to order; the exact round trips of C22 and C27, coverage of C23 |
| C121 | sizes of token lists, normalised texts and count tables | lossless tokenisations, runs, and double counting over the exact counts of C21, C30 and C33 |
| C122 | heap of score dicts shared by the caller and the tokenizer objects | invariant: the caller's names are distinct references; a dict without a name stays empty |
| C123 | `DoublespaceLineCorpus` with its file as a mutable cell: the object of `LineCorpus` with its file replaced or removed between calls (soynlp/utils/utils.py:101-190) | induction over the history of rewritings, removals, iterations and `len()` against a specification that keeps only the current file and the first successful measurement |

No property is judged inexpressible; floats are replaced by exact arithmetic (noted above).

## What is not modelled

Numpy/scipy matrix algebra inside `soynlp.vectorizer` is modelled as exact arithmetic on entries; `sklearn`'s `randomized_svd`
(utils/math.py) and `pairwise_distances` are not modelled at all. Printing, memory statistics and pickling (except that what is dumped is what is loaded, C68) are
not modelled. Object identity is modelled only where the code shares mutable objects with its caller (Dictionary, predicator sets).
Python's `re` is trusted to be what `Spec/Regex` says. Hash seeds: set iteration order is a universally quantified permutation.

## Where the code does something other than its documentation or names suggest

Each of these is a theorem or example beside the property named (or, where marked *, only described here).

* C06 `levenshtein(a, b, cost)` ignores the cost table when len(a) < len(b). C09, C11: `remove_doublespace`/`repeat_normalize`/emoticon normalisation corner cases; a syllable next to a foreign jaum is deleted.
* C14, C19, C52: MaxScoreTokenizer never looks a word of one or two characters up; NounMatchTokenizer loses nouns of at most two characters, and scores of compounds count words outside them.
* C20, C62: the LR tokenizer repeats or loses text at the last gap (it starts at the end of the last *left* word); a lone right word raises AttributeError; `base_tokenizer.scores` does not exist; a left score of −1e-5 divides by zero.
* C24–C27: top-k 0 and negative mean "all"; loading a graph file keeps only the last adjacent block of a left part; a blank line raises IndexError. C29: a corpus limit of 0 means no limit.
* C33: with `filtering_checkpoint` the bigram counter is pruned before it counted anything and loses counts; unigram counts are type counts. C34, C36: vectorizer corner cases. C37: the co-occurrence matrix can have fewer rows than the vocabulary (shape inferred by scipy), and no pair at all raises ValueError.
* C38: a set handed to two new tags is shared by them, a list makes the tag unusable. C39: select_best sorts by the right string, so output can repeat or lose text; an eojeol without candidates vanishes; is_verb tests 'Adverb'. C40: the greedy compound search misses compounds; *SimpleTagger(debug=True) with EojeolTemplateMatcher raises AttributeError. C63: compounds of three or more nouns lose to "unknown".
* C41: the built-in predefined lemmas are keyed by strings and never match; *Lemmatizer.candidates always raises AttributeError. C43: a bare ㅇ ending after an open ㅡ stem and conjugate_chat with ㄸ/ㅃ/ㅉ raise ValueError. C44, C57, C58: forms that cannot be recovered (갔다, 이르러, 하였다, 퍼다); 잡+았다 yields only 자왔다; any syllable with ㅓ takes the ㅎ-merge (precedence of `and`/`or`).
* C45: v1's two scans differ under ensure_normalized; min_noun_frequency is ignored by extract; compounds are never found since `predict(word, nouns)` passes the table as min_noun_score. *v1's right parts are limited to max_right_length − 1.
* C47: any explicit `postprocessing` argument raises TypeError; check_N_is_NJ on a graph that cannot be reset raises AttributeError. C48: a swapped tuple means that with the defaults no feature is ever found.
* C49: decompose_compound drops everything after the first blank; words of at most two characters never decompose; compounds are stored as (score, count), so min_noun_frequency > 1 drops all of them and the nouns of the same text. C54: verbose extraction without any eojeol divides by zero; `ensure_normalized` is inverted when training on sentences. *`_extract_determiner` raises (NotImplemented is not an exception).
* C50: unknown stems ending in 이 count as adjectives; an empty stem raises IndexError. C51: the letter s splits English words.
* C55: v1 ignores the rest of a malformed feature file silently; v2's append_features breaks disjointness; blank lines become the feature ''.
* C56: a word with a good reading is lost when two stems share an ending that is taken back (산다), depending on set order; removed eomis stay removed; the caller's counter is changed; min_predicator_frequency is strict. C59: EomiExtractor.predict raises AttributeError outside extract; the second score filter is vacuous. C60: `_to_stem` swaps frequency and score; min_entropy_of_R is never used; the inverted known-eomi test loses stems. C61: the caller's eomi set is updated in place.
* C64: sentences are read as circles: the last word precedes the first.
* C72: with the default verbose=True, NewsPOSExtractor.extract divides by the total frequency when it prints its statistics, so a corpus without eojeols ends in ZeroDivisionError although the result is ready.
* C69–C72: NewsPOSExtractor never returns a noun that does not also stand alone; a noun may be counted three times for one occurrence; extract() changes the object, so calling it again can give a
  different answer; a lemma with an empty ending raises IndexError; *with verbose=True an empty corpus raises ZeroDivisionError; `_as_predicator`'s fallback lemmatisation is never used.
* C73, C74: ChatPOSExtractor computes its new stems from an empty set (`wrong_stems` minus `wrong_stems`), so it never learns one; the test for words that are already predicators can never hold.
* C76: tokenizer.normalize is not idempotent (abababaaaab with 1, aabaabaabaaaab with 2) and *lengthens* repeated letters when num_repeat > 4.
* C79, C80: NewsNounExtractor compares min_feature_proportion with the frequency; base_noun_dictionary raises NameError; the verb and adjective lists it opens are not in the repository, so its verb rules never
  fire (*the handler hides the error); its search for "noun + verb" overwrites the word it cuts, so only the cut after two characters is ever tried; 으로의 in its list of particles can never match; nouns of
  earlier extractions stay in the result of later ones. *`soynlp.utils.__all__` lacks a comma.
* C82: with the default verbose=True a corpus in which no eojeol occurs twice makes train raise ZeroDivisionError; predicators are counted in the normalised text and only up to 15 characters, eojeols up to 19
  and in the raw text when ensure_normalized=False; min_eojeol_frequency=1 acts as 2 for predicators.
* C83: with the default verbose=True fewer than 40 sentences make EojeolPatternTrainer.train raise ZeroDivisionError; right parts have at most max_right_length − 1 characters; the vocabulary is split on blanks,
  the graph on any whitespace; the caller's wordset_r gets '' added; `train_hits` lacks `self` and always raises (C96).
* C84: load never restores verbose (`==` for `=`). C85: check_dirs never creates the directory it was asked to check (it tests for '.'); most_similar may return topk + 1 items.
* Not modelled because it cannot be constructed: LRMaxScoreTagger (postagger/_lrtagger.py passes two arguments to Dictionary: TypeError; the LREvaluator of the same file is modelled, C117) and POSExtractor (unknown keyword arguments: TypeError).
* C86: the packaged endings ㅔ요 and ㅑ (any ending that starts with a bare vowel) make conjugate raise ValueError with every stem.
* SimpleEojeolEvaluator with its default weights returns a compound of three or more dictionary nouns as one unknown word (C87). LREvaluator's weight `is_verb` is applied to adverbs (C88).
* C89: LRGraph keeps the caller's plain dict as its own table, so two graphs built on one dict corrupt each other (get_r follows, get_l does not).
* C90: BaseVectorizer.to_file of a generator silently writes a malformed Matrix Market file (entries declared, none written); fit_transform of a generator raises UnboundLocalError.
* C91: PredicatorExtractor.extract called twice with the same words can report more words the second time (endings forgotten by the first call no longer knock words out).
* C95: the prediction log of LRNounExtractor_v2 announces 'noun score frequency' but writes the frequency (support) before the score.
* C97: `PredicatorExtractor.train(extract_eomi=True)` adds to the caller's own `eomis` set, and `train(counter)` deletes rare eojeols from the caller's counter: extractors sharing either influence each other.
* C98: `save` writes in place, so a crash can leave a file that loads without complaint and with wrong values: a count without its last digits (`C98_lost_digit`), `서기 2018년 3` read as 201 occurrences of 서기 alone (`C98_wrong_pair`), a vocabulary term with another index (`C98_wrong_index`).
* C99: a failed `Bigram.train` has already thrown the old counts away and leaves old single-word counts beside new pair counts, so 'pmi'/'mikolov' raise KeyError (`C99_bigram_scores`). `LRNounExtractor.train` failing in its second reading leaves the counts of one corpus and the graph of another (`C99_second_reading_extract`); `check_corpus` accepts an object that can be read only once, and then no noun is found (`C99_read_once`).
* C100: `extract` on a frozen graph destroys the graph before it notices that it cannot look for compounds; without compounds it silently reports 0 % coverage. Re-training on an empty corpus with `verbose=True` makes `extract` raise ZeroDivisionError and leaves the old nouns in place.
* C101: calling a `MaxLRScoreTokenizer` returns internal lists instead of `(word, tag)` pairs (`debug=True` is the default of `__call__` only), and the offsets of pieces between candidates are those of the gap, not of the piece (`C101_positions_violation`).
* C102: the result of `NewsNounExtractor` depends on the order of the sentences (a compound is only accepted if the shorter compound inside it came first, `C102_news_violation`); which words `PredicatorExtractor` reports as well (`C102_predicator_violation`); indices of `BaseVectorizer` with tied document frequencies, and everything filtered on the way (`C102_vectorizer_violation`, `C102_pruning_violation`).
* C103: a stricter threshold can add words: `LRNounExtractor` with a higher `minimum_noun_score` (`C103_v1_violation`), `LRNounExtractor_v2` with a higher `min_noun_frequency` or `min_noun_score` (`C103_v2_violation`, `C103_v2_score_violation`), `WordExtractor.extract(remove_subwords=True)` with any higher threshold (`C103_words_violation`).
* C105: `Bigram.is_trained` is false after a training that kept no pair and true after one that was interrupted; `EomiExtractor.is_trained` is true after an `extract`
  that raised; `PredicatorExtractor.is_trained` raises AttributeError always (it reads `lrgraph`, which the class never sets).
* C106: a minimum count is applied to each part: a word that reaches it only in the whole corpus is lost when the corpus is counted in parts (also with `cumulate=True`).
* C107: accessor variety and branching entropy are not functions of relative frequencies: reading the corpus twice instead of once can change them (never after that). The bigram PMI
  grows with the size of the corpus, because its denominators count types.
* C108: two `Dictionary` objects built from one dict share it, but not `max_length` (`C108_stale_max_length`); the constructor replaces the values of the caller's dict even when it raises.
* C109: `tag(debug=True)` with `EojeolTemplateMatcher` always raises AttributeError (`x[0].b` of a list).
* C110: `Bigram` is the only counter here for which line breaks matter (one more pair per joined line); the accessor counts of `WordExtractor` depend on them too (C64).
* C111: no violation found.
* C112: three violations (the flattened output of LTokenizer, NounMatchTokenizer, MaxScoreTokenizer beyond 203 characters: `C112_right_parts_violated`, `C112_noun_match_violated`, `C112_long_violated`).
* C113: one violation (a fixed positive tolerance: `C113_tolerance_violated`).
* C114: two defects (integers pass the type test of `to_base` and are then rejected by `ord`; `Lemmatizer.candidates` always raises on a word).
* C115: three violations (LTokenizer with a tolerance, nouns lost by adding a noun, compounds lost by adding a noun: `C115_tolerance_violated`, `C115_noun_lost`, `C115_compound_lost`).
* C116: holds for everything that only compares strings; `jamo_levenshtein` is the counterexample (`C116_jamo_not_blind`). The renaming must keep the blank because WordExtractor joins words with it in its tables.
* C117: holds; the class is not exported by soynlp.postagger (which exports another LREvaluator), so it must be imported from its module.
* C118: holds without intermediate pruning; with num_for_pruning an unrelated sentence can change the frequency of a word (`C118_pruning`); unrelated sentences change the PMI of a pair (`C118_pmi_violated`) and make a word a noun for LRNounExtractor (`C118_noun_violated`).
* C119: three asymmetries (`C119_emoticon_violated`, `C119_words_violated`, `C119_maxscore_violated`).
* C120: coverage starts again from 0 after a save and load (`C120_coverage_violation`), and what was added to or removed from a graph before a save is lost by it (`C120_graph_violation`).
* C121: repeat removal with a limit above 3 lengthens a text (`C121_longer_violation`).
* C122: a tokenizer made with an empty dict never sees what is put into it later, although one made with a non-empty dict does (`C122_late_violation`); a MaxLRScoreTokenizer sees later changes of its preference dicts but not of `Dl` and `Dr` (`C122_lr_violation`).
* C123: after one `len()`, a `DoublespaceLineCorpus` never shows documents appended to its file: the remembered length silently becomes a limit on iteration. Iterating after the file was removed raises UnboundLocalError (the failure to open it is printed and swallowed). Training with the corpus is enough to fix its length.
