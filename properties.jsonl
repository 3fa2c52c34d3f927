{"id": "C01", "title": "compose and decompose are mutually inverse", "statement": "For every complete Hangul syllable c, compose(*decompose(c)) == c; for every triple of a chosung, a jungsung and a jongsung (or ' '), compose succeeds, yields a code point in [0xAC00, 0xD7A3], and decompose of it gives the triple back; compose raises ValueError for every other triple.", "quantifier": "all characters and all triples of characters", "why_tests_cant": "11172 syllables times every malformed triple; a unit test samples a handful", "anchors": ["soynlp/hangle/_hangle.py:compose", "soynlp/hangle/_hangle.py:decompose"]}
{"id": "C02", "title": "decompose classifies every character", "statement": "decompose(c) is None exactly when c is neither a complete syllable nor a compatibility jamo; a jaum gives (c,' ',' '), a moum gives (' ',c,' '); two different Korean characters never have the same decomposition; the three character_is_* classes are pairwise disjoint and cover character_is_korean; character_is_number, _english and _punctuation hold exactly of the ASCII digits, the ASCII letters and ! \" ' , . ? `.", "quantifier": "all characters", "why_tests_cant": "must hold for the whole code-point space", "anchors": ["soynlp/hangle/_hangle.py:decompose", "soynlp/hangle/_hangle.py:character_is_korean", "soynlp/hangle/_hangle.py:character_is_jaum", "soynlp/hangle/_hangle.py:character_is_moum", "soynlp/hangle/_hangle.py:character_is_complete_korean"]}
{"id": "C03", "title": "ConvolutionHangleEncoder round-trips", "statement": "onehot_to_sent(sent_to_onehot(s)) equals the normalised sentence (other characters become blanks, blanks are collapsed and stripped) for every s, never raises, and never emits the unknown index; every index emitted is < 80 and encode(s) has exactly one row per normalised character with 1 or 3 ones.", "quantifier": "all input strings", "why_tests_cant": "unbounded string space, 11172+51+11 characters per position", "anchors": ["soynlp/hangle/_hangle.py:ConvolutionHangleEncoder.sent_to_onehot", "soynlp/hangle/_hangle.py:ConvolutionHangleEncoder.onehot_to_sent", "soynlp/hangle/_hangle.py:ConvolutionHangleEncoder.encode"]}
{"id": "C04", "title": "hangle.normalize keeps only requested characters", "statement": "The result contains only Korean characters, single blanks, and the character groups the flags asked for (or members of remains); has no leading, trailing or doubled whitespace; every permitted character of the input survives in order (remove_repeat=0); the function is idempotent.", "quantifier": "all strings and all flag combinations", "why_tests_cant": "every string and every flag combination", "anchors": ["soynlp/hangle/_hangle.py:normalize"]}
{"id": "C05", "title": "levenshtein is the minimal edit cost and a metric", "statement": "levenshtein(a,b) (default cost) equals the least number of insertions, deletions and substitutions turning a into b; it is 0 iff a==b, symmetric, satisfies the triangle inequality, is at least the length difference and at most the longer length.", "quantifier": "all pairs and triples of strings", "why_tests_cant": "minimality over every edit script and the triangle inequality over all triples cannot be sampled", "anchors": ["soynlp/hangle/_distance.py:levenshtein"]}
{"id": "C06", "title": "levenshtein with a caller's substitution cost: exactly when it is honoured", "statement": "With a cost table, levenshtein(a,b,cost) is the minimal cost of an edit script turning a into b whose insertions and deletions cost 1 and whose substitutions are charged from the table (1 if unlisted), if len(a) >= len(b). If len(a) < len(b) the table has no effect whatsoever: the value is the plain edit distance. (So the documented behaviour 'the cost is honoured whichever argument is longer' is refuted, with a witness.)", "quantifier": "all pairs of strings and all cost tables", "why_tests_cant": "needs all argument orders and all cost tables", "anchors": ["soynlp/hangle/_distance.py:levenshtein"]}
{"id": "C07", "title": "jamo_levenshtein is a metric finer than levenshtein", "statement": "jamo_levenshtein is 0 iff the strings are equal, symmetric, satisfies the triangle inequality, never exceeds levenshtein, and replacing one syllable by another costs one third per differing jamo position at most. It is exactly the least cost of insertions and deletions (1 each) and replacements, which cost a third of the edit distance of the two letter triples between Korean characters and 1 otherwise.", "quantifier": "all strings", "why_tests_cant": "metric laws range over all triples of strings", "anchors": ["soynlp/hangle/_distance.py:jamo_levenshtein"]}
{"id": "C08", "title": "jaccard and cosine distances are bounded and symmetric", "statement": "jaccard_distance and cosine_distance never raise, are symmetric, and on an empty input give the documented constants 1 and 2. For non-empty strings jaccard_distance is one minus the number of shared distinct characters over the number of distinct characters, cosine_distance one minus the inner product of the character counts over the product of their norms; both lie in [0,1] and are 1 iff no character is shared; jaccard is 0 iff the two strings use the same characters, cosine 0 iff their character counts are proportional.", "quantifier": "all pairs of strings", "why_tests_cant": "all pairs of strings", "anchors": ["soynlp/hangle/_distance.py:jaccard_distance", "soynlp/hangle/_distance.py:cosine_distance"]}
{"id": "C09", "title": "normalizer.normalize keeps only requested characters", "statement": "normalize(doc, flags) returns text containing only Hangul, single blanks and the groups (alphabet, number, punctuation, symbol, quotes) left on by the flags, with no leading/trailing/doubled whitespace, and is idempotent; only_hangle, only_hangle_number and only_text are the same for their alphabets.", "quantifier": "all strings and flags", "why_tests_cant": "unbounded strings times flag combinations", "anchors": ["soynlp/normalizer/_normalizer.py:normalize", "soynlp/normalizer/_normalizer.py:only_hangle", "soynlp/normalizer/_normalizer.py:only_hangle_number", "soynlp/normalizer/_normalizer.py:only_text"]}
{"id": "C10", "title": "repeat_normalize bounds runs and is idempotent", "statement": "For n>=1 repeat_normalize(s,n) leaves no run of more than max(n,2) equal word characters, leaves runs of one or two untouched, shrinks or sets each longer run to exactly n, and applying it twice equals applying it once.", "quantifier": "all strings, all repeat counts", "why_tests_cant": "runs of every length at every position", "anchors": ["soynlp/normalizer/_normalizer.py:repeat_normalize", "soynlp/normalizer/_normalizer.py:remove_doublespace"]}
{"id": "C11", "title": "emoticon_normalize rewrites exactly the syllables next to free-standing consonants", "statement": "emoticon_normalize(text, n) never raises and returns repeat_normalize(t, n) for the one text t in which every character has met its fate, decided by the character and its two neighbours: a syllable is deleted if a consonant other than its own final follows, or if no jamo follows and a consonant other than its initial precedes; it is replaced by its initial and vowel if its initial precedes and either its vowel follows and it has no final, or no jamo follows; if its own final follows as a jamo, the final is split off; every other character stays. In texts without such a foreign neighbour the same letters are spelled. (The naive claim that ordinary text is never lost is refuted with a witness.)", "quantifier": "all strings", "why_tests_cant": "depends on every neighbouring pair", "anchors": ["soynlp/normalizer/_normalizer.py:emoticon_normalize"]}
{"id": "C12", "title": "normalize_sent_for_lrgraph yields eojeols ending in Hangul", "statement": "Every whitespace-separated piece of the result ends with a Hangul character, is a prefix of a piece of the filtered input, contains no symbol characters; pieces keep their order; the function is idempotent.", "quantifier": "all strings", "why_tests_cant": "unbounded strings", "anchors": ["soynlp/normalizer/_normalizer.py:normalize_sent_for_lrgraph", "soynlp/normalizer/_normalizer.py:remain_hangle_on_last"]}
{"id": "C13", "title": "LTokenizer is lossless and picks the best left part", "statement": "For every sentence, scores and tolerance, the L and R parts of each eojeol concatenate to the eojeol; eojeols of at most two characters are untouched; otherwise L has at least two characters, its score is within max(tolerance,0) of the best score of any prefix of length >= 2, and among those it is the longest.", "quantifier": "all sentences, score tables, default scores, tolerances", "why_tests_cant": "optimality over every prefix and every score table", "anchors": ["soynlp/tokenizer/_tokenizer.py:LTokenizer.tokenize"]}
{"id": "C14", "title": "MaxScoreTokenizer is lossless", "statement": "For every sentence and every score table (max_length >= 2), the tokens of each eojeol are non-empty, their offsets are contiguous from 0 to the eojeol length, each token equals the slice its offsets name, and their concatenation is the eojeol; even when the internal 100-iteration cut-off triggers.", "quantifier": "all sentences, score tables and max_length values", "why_tests_cant": "needs every score table, and eojeols long enough to hit the cut-off", "anchors": ["soynlp/tokenizer/_tokenizer.py:MaxScoreTokenizer.tokenize", "soynlp/tokenizer/_tokenizer.py:MaxScoreTokenizer._recursive_tokenize"]}
{"id": "C15", "title": "MaxScoreTokenizer is greedy-optimal", "statement": "For every eojeol of more than two characters the result is exactly the greedy choice: substrings of length 2..max_length are picked best first (highest score, then longest, then leftmost), each pick dropping the substrings that overlap it, at most 101 picks; the tokens are the picks with their table scores and the gaps that remain (a gap at the start or end of the eojeol carries its table score, an inner gap the default score), tiling the eojeol in order; the choice is unique. In particular the best substring is always an output token, and for up to 203 characters a substring is absent only if it overlaps a better-ranked pick and every gap is one character. A shorter eojeol is one token with the default score.", "quantifier": "all eojeols and score tables", "why_tests_cant": "quantifies over all substrings and tables", "anchors": ["soynlp/tokenizer/_tokenizer.py:MaxScoreTokenizer._find", "soynlp/tokenizer/_tokenizer.py:MaxScoreTokenizer._initialize"]}
{"id": "C16", "title": "RegexTokenizer is lossless", "statement": "Concatenating the flattened tokens gives the sentence with whitespace removed, tokens are never empty and never contain whitespace. The tokens are exactly what results from cutting the whitespace-separated words at the matches of the number pattern, the parts at the matches of the syllable pattern, and so on through the five patterns in the order of the source, each read and matched as Python's re does; in particular, finding each match again by its text never marks a wrong place.", "quantifier": "all strings", "why_tests_cant": "unbounded strings and pattern interactions", "anchors": ["soynlp/tokenizer/_tokenizer.py:RegexTokenizer.tokenize", "soynlp/tokenizer/_tokenizer.py:RegexTokenizer._tokenize"]}
{"id": "C17", "title": "RegexTokenizer separates scripts", "statement": "Every output token that contains a Hangul syllable consists only of Hangul syllables; likewise for jaum and for moum; and a maximal run of syllables is never split. The tokens that contain a digit are, in order, exactly the matches of the number pattern in the sentence.", "quantifier": "all strings", "why_tests_cant": "every interleaving of scripts", "anchors": ["soynlp/tokenizer/_tokenizer.py:RegexTokenizer._tokenize"]}
{"id": "C18", "title": "NounLMatchTokenizer returns left-anchored nouns", "statement": "Each eojeol yields a (possibly empty) chain of dictionary nouns that concatenate to a prefix of the eojeol, each noun being the longest dictionary noun at its start; the rest of the eojeol is discarded; composed output is exactly that prefix.", "quantifier": "all sentences and noun sets", "why_tests_cant": "all dictionaries and strings", "anchors": ["soynlp/tokenizer/_noun_tokenizer.py:NounLMatchTokenizer.tokenize"]}
{"id": "C19", "title": "NounMatchTokenizer output consists of positively scored words", "statement": "Without compounding, every output word is a token of the max-score tokenisation with positive score, in order; with compounding every output word is the concatenation of a maximal adjacent group of those; nothing else is output.", "quantifier": "all sentences and score tables", "why_tests_cant": "all dictionaries and strings", "anchors": ["soynlp/tokenizer/_noun_tokenizer.py:NounMatchTokenizer.tokenize"]}
{"id": "C20", "title": "MaxLRScoreTokenizer: how far its result is a tokenisation", "statement": "If tokenize returns, the tokens of each eojeol spell the eojeol with one piece r repeated, r being empty or an entry of the R dictionary; the tokens of an eojeol never end with a right word, so an eojeol is never split into just left word + right word. A one- or two-letter entry of the R dictionary standing alone raises AttributeError when the L dictionary is empty. With an empty R dictionary and non-negative left scores the call never raises and is lossless. (The naive claim 'never raises and concatenates to the eojeol' is refuted with witnesses; C62 says exactly which tokens are returned and when the call raises.)", "quantifier": "all sentences, dictionaries, preferences and thresholds", "why_tests_cant": "needs every dictionary/eojeol combination", "anchors": ["soynlp/tokenizer/_tokenizer.py:MaxLRScoreTokenizer._tokenize", "soynlp/tokenizer/_tokenizer.py:MaxLRScoreTokenizer._add_last_subword", "soynlp/tokenizer/_tokenizer.py:MaxLRScoreTokenizer._base_tokenizing_subword"]}
{"id": "C21", "title": "EojeolCounter counts exactly", "statement": "Without checkpoint filtering, counter[e] is the number of occurrences of e in the whitespace-split preprocessed sentences if that number is at least min_count and len(e) <= max_length, else 0; with checkpoint filtering it is exactly the count of a counter that forgets a count below min_count in front of every sentence whose index is a positive multiple of filtering_checkpoint and once more at the end; it never exceeds the true count and every stored count is >= min_count; independent of sentence order when unfiltered.", "quantifier": "all corpora and parameters", "why_tests_cant": "all corpora, all checkpoint positions", "anchors": ["soynlp/utils/utils.py:EojeolCounter._counting_from_sents", "soynlp/utils/utils.py:EojeolCounter.__getitem__"]}
{"id": "C22", "title": "EojeolCounter save/load round-trips", "statement": "Loading a saved counter gives the same count for every eojeol and the same total, for every counter whose keys are non-empty and whitespace-free (which counting guarantees); the file is sorted by descending count. Loading any file of lines 'word count' gives each word the count of its last line; the first line of another form raises ValueError, the entries before it stay in the object with the old total.", "quantifier": "all counters", "why_tests_cant": "all counter contents", "anchors": ["soynlp/utils/utils.py:EojeolCounter.save", "soynlp/utils/utils.py:EojeolCounter.load"]}
{"id": "C23", "title": "EojeolCounter coverage is consistent", "statement": "After any sequence of remove_covered_eojeols calls on a counter with positive counts, coverage equals 1 - remaining/original, lies in [0,1], never decreases, removed eojeols read 0 and others are unchanged; no call raises unless the counter was empty.", "quantifier": "all histories of removals", "why_tests_cant": "all histories", "anchors": ["soynlp/utils/utils.py:EojeolCounter.remove_covered_eojeols", "soynlp/utils/utils.py:EojeolCounter.coverage"]}
{"id": "C24", "title": "LRGraph's two directions stay transposed", "statement": "In every state reachable by add_lr_pair, add_eojeol, remove_lr_pair, remove_eojeol, reset_lrgraph and freeze (including calls that raise), count(l,r) seen from get_r(l) equals count seen from get_l(r) for every non-empty r, no pair is stored twice and no empty neighbour table is kept.  add_eojeol adds to exactly the cuts of the word, or raises KeyError at the first cut that is missing, the shorter ones already increased.", "quantifier": "all operation histories from any initial graph", "why_tests_cant": "all interleavings of operations", "anchors": ["soynlp/utils/utils.py:LRGraph.add_lr_pair", "soynlp/utils/utils.py:LRGraph.remove_lr_pair", "soynlp/utils/utils.py:LRGraph.reset_lrgraph", "soynlp/utils/utils.py:LRGraph._check_lrgraph"]}
{"id": "C25", "title": "LRGraph.reset restores the original graph", "statement": "After any history of add/remove operations without freeze, reset_lrgraph makes every get_r and get_l answer as right after construction; after freeze it changes nothing.  copy_compatified_lrgraph_origin gives a graph that answers like the freshly constructed one (AttributeError if frozen, IndexError if it was empty).", "quantifier": "all operation histories", "why_tests_cant": "all histories", "anchors": ["soynlp/utils/utils.py:LRGraph.reset_lrgraph", "soynlp/utils/utils.py:LRGraph.freeze"]}
{"id": "C26", "title": "LRGraph counts eojeol splits exactly and converts back", "statement": "EojeolCounter.to_lrgraph gives count(l,r) = count of eojeol l+r for each split within the length limits and nothing else, and to_EojeolCounter of it returns exactly the original counts of all eojeols that have an admissible split (all with len <= l_max+r_max).  LRGraph(sents=...) lists exactly the admissible splits of the occurring words, weighted by len(l).", "quantifier": "all counters and length limits", "why_tests_cant": "all counters", "anchors": ["soynlp/utils/utils.py:EojeolCounter._to_lrgraph", "soynlp/utils/utils.py:LRGraph.to_EojeolCounter"]}
{"id": "C27", "title": "LRGraph save/load round-trips", "statement": "Saving the original graph of an object (its parts free of whitespace and its left parts non-empty) and loading it into another gives the same neighbours and counts from both sides. Loading any file of lines 'left right count' / 'left count' keeps, per left part, only its last block of adjacent lines (and inside it the last count per right part); a blank line raises IndexError, any other malformed line ValueError, and the current graph stays as it was, while the original it can be reset to is replaced by the blocks completed before that line; the empty graph does not round-trip (IndexError) and a frozen graph cannot be saved.", "quantifier": "all graphs", "why_tests_cant": "all graphs", "anchors": ["soynlp/utils/utils.py:LRGraph.save", "soynlp/utils/utils.py:LRGraph.load"]}
{"id": "C28", "title": "LRGraph.remove_eojeol removes exactly one eojeol's splits", "statement": "remove_eojeol(w,k) lowers count(l,r) by k (removing at <= 0) for exactly the splits l+r=w with non-empty l and changes no other pair.  remove_lr_pair touches its one pair only.", "quantifier": "all graphs, eojeols, counts", "why_tests_cant": "all graphs", "anchors": ["soynlp/utils/utils.py:LRGraph.remove_eojeol", "soynlp/utils/utils.py:LRGraph.remove_lr_pair"]}
{"id": "C29", "title": "DoublespaceLineCorpus length equals what iteration yields", "statement": "For every file with a document after the header, every header skip, num_doc, num_sent and iter_sent, len(corpus) is the number of items iteration yields, the items are the stripped documents / sentences allowed by the limits in file order, and calling len changes nothing; the one exception is sentence mode when the allowed documents hold no sentence but the file does: the computed limit 0 is then read as 'no limit' (len 0, everything iterated).  A file with fewer lines than the header is a corpus of length 0 that yields nothing.", "quantifier": "all files and parameters", "why_tests_cant": "all files and parameter combinations", "anchors": ["soynlp/utils/utils.py:DoublespaceLineCorpus.__iter__", "soynlp/utils/utils.py:DoublespaceLineCorpus.__len__", "soynlp/utils/utils.py:DoublespaceLineCorpus._check_length"]}
{"id": "C30", "title": "WordExtractor counts left and right substrings", "statement": "After train, L[w] (R[w]) is the number of tokens of length >= 2 having w as prefix (proper suffix) within the length limits if that is >= min_frequency, else absent, independent of sentence order (no mid-training pruning); with pruning never above the true count, and exactly the count of a counter that is reset whenever a pruning (at sentences of two or more words whose index is a multiple of num_for_pruning, and at the end) finds it below min_frequency.  After any history of train calls, completed or cut short by an exception of the corpus, the two frequencies of a word are the counts that the history keeps in this way.", "quantifier": "all corpora and parameters", "why_tests_cant": "all corpora", "anchors": ["soynlp/word/_word.py:WordExtractor.train", "soynlp/word/_word.py:WordExtractor.frequency"]}
{"id": "C31", "title": "cohesion_score never fails and lies in [0,1]", "statement": "In every state reachable by any sequence of train calls (with or without pruning, cumulative or not, completed or cut short by an exception of the corpus) cohesion_score(w) raises no KeyError/ZeroDivisionError and both components are in [0,1] for every string w.", "quantifier": "all training histories and words", "why_tests_cant": "all histories and words", "anchors": ["soynlp/word/_word.py:WordExtractor.cohesion_score", "soynlp/word/_word.py:WordExtractor.train"]}
{"id": "C32", "title": "all_accessor_variety agrees with accessor_variety", "statement": "For every word shorter than both length limits, the batch table and the single-word query give the same pair (absent meaning (0,0)).  For longer words each side of the batch table is the single-word value while the word is shorter than that side's own limit, and 0 otherwise.", "quantifier": "all trained states and words", "why_tests_cant": "all states and words", "anchors": ["soynlp/word/_word.py:WordExtractor.all_branching_entropy", "soynlp/word/_word.py:WordExtractor.accessor_variety"]}
{"id": "C33", "title": "Bigram counts adjacent pairs", "statement": "With filtering off, the extracted frequency of a bigram is the number of adjacent occurrences in the tokenised sentences if >= min_frequency (and >= threshold), else absent; with filtering the frequency is exactly what is left of running through the sentences in order, dropping at every checkpoint and at the end what is below min_frequency, and it never exceeds the number of occurrences; the pmi and mikolov scores are computed from these filtered counts. topk does not limit the result (a violated expectation).  Extraction before training raises AttributeError with every score; a score other than frequency, pmi and mikolov is accepted by the constructor and raises TypeError in extract.", "quantifier": "all corpora, tokenizers and parameters", "why_tests_cant": "all corpora", "anchors": ["soynlp/word/_phrase.py:Bigram.train", "soynlp/word/_phrase.py:Bigram._extract_by_frequency"]}
{"id": "C34", "title": "BaseVectorizer vocabulary is a bijection and coding round-trips", "statement": "After fit on any non-empty corpus (an empty one raises UnboundLocalError), vocabulary_ and idx2vocab are inverse bijections onto 0..n_vocabs-1, ordered by non-increasing document count; decode_from_list(encode_a_doc_to_list(d)) is d's tokens restricted to the vocabulary; decode_from_bow(encode_a_doc_to_bow(d)) gives each vocabulary token's count in d.  The constructor accepts exactly 0 <= min_df < 1 and 0 < max_df <= 1 (AssertionError otherwise); a corpus of fewer than 1/max_df documents gives the empty vocabulary, and with default frequency limits a term of all documents is kept iff max_df is 1.", "quantifier": "all corpora, tokenizers, thresholds and documents", "why_tests_cant": "all corpora", "anchors": ["soynlp/vectorizer/_vectorizer.py:BaseVectorizer.fit", "soynlp/vectorizer/_vectorizer.py:BaseVectorizer.encode_a_doc_to_list", "soynlp/vectorizer/_vectorizer.py:BaseVectorizer.decode_from_bow"]}
{"id": "C35", "title": "BaseVectorizer file output matches transform", "statement": "to_file writes a header whose element count equals the number of entry lines, every line is a (doc+1, term+1, count) entry of transform's matrix, no cell twice, indices in range.", "quantifier": "all corpora and vocabularies", "why_tests_cant": "all corpora", "anchors": ["soynlp/vectorizer/_vectorizer.py:BaseVectorizer.to_file", "soynlp/vectorizer/_vectorizer.py:BaseVectorizer.transform"]}
{"id": "C36", "title": "BaseVectorizer save/load round-trips", "statement": "load(save(v)) restores idx2vocab and vocabulary_ for every vocabulary of newline-free, strip-stable terms.  Loading any vocabulary file: it fails with FileNotFoundError when the file is missing; otherwise the stripped lines are the terms in file order, and a term maps to the number of the last line that holds it.  save writes exactly one file, whose name gets the extension .vocab unless it has it already, and leaves every other file alone; load reads that file.", "quantifier": "all vocabularies", "why_tests_cant": "all vocabularies", "anchors": ["soynlp/vectorizer/_vectorizer.py:BaseVectorizer.save", "soynlp/vectorizer/_vectorizer.py:BaseVectorizer.load"]}
{"id": "C37", "title": "word-context matrix is symmetric", "statement": "sent_to_word_contexts_matrix gives weight(a,b) = weight(b,a) = sum over sentence positions within the window of the distance weight, for constant and dynamic weights; rows and columns only for words with frequency >= min_tf; more frequent words get smaller indices.  The cells stored are exactly those of vocabulary words within the window of each other; it raises UnboundLocalError iff the corpus is empty with verbose, else ValueError iff there is no such pair. (Violated expectation: the matrix has no rows for the last vocabulary words if they have no neighbours, so shape[0] can be smaller than the vocabulary.)", "quantifier": "all corpora, windows, tokenizers", "why_tests_cant": "all corpora", "anchors": ["soynlp/vectorizer/_word_context.py:_word_context", "soynlp/vectorizer/_word_context.py:_scanning_vocabulary"]}
{"id": "C38", "title": "Dictionary histories: max_length, get_pos, add, remove, save/load", "statement": "In every state reachable by construction, load, add_words and remove_words (including raising calls), each stored word has length <= max_length; get_pos(w) is exactly the tags with word_is_tag(w,tag), each once; the constructor raises ValueError iff no word is given; a successful add_words adds exactly the given words, remove_words removes exactly them, and each raises exactly in the stated cases (unknown tag, no words, a list where a set is needed) without changing any word's tags; other tags are unchanged as long as no caller-owned set was handed over for a new tag (otherwise tags can share one set); load(save) restores the dictionary.", "quantifier": "all operation histories", "why_tests_cant": "all histories", "anchors": ["soynlp/postagger/_dictionary.py:Dictionary.add_words", "soynlp/postagger/_dictionary.py:Dictionary.remove_words", "soynlp/postagger/_dictionary.py:Dictionary.get_pos"]}
{"id": "C39", "title": "SimpleTagger with LR components", "statement": "LRTemplateMatcher.generate returns exactly the dictionary-supported candidates, ordered by begin, end of L, L tag, end of R, R tag; LREvaluator.select_best selects a candidate iff it overlaps no selected candidate of higher score (or equal score and listed earlier) and returns them ordered by the R string; every emitted tag is right by the dictionary, every emitted word is a piece of the eojeol and every selected word is emitted; an eojeol yields no word at all iff it has no candidate; otherwise the emitted words spell the eojeol if and only if select_best returns the selected words in text order, and in general they are longer than the eojeol by exactly the distances by which selected words begin before the end of the one returned just before. (So the naive claim 'the emitted words concatenate to the eojeol' is refuted with a witness: select_best sorts by the R string, not by position.)", "quantifier": "all sentences, dictionaries, weights", "why_tests_cant": "all dictionaries and sentences", "anchors": ["soynlp/postagger/_tagger.py:SimpleTagger.tag", "soynlp/postagger/_tagger.py:UnknowLRPostprocessor.postprocess", "soynlp/postagger/_evaluator.py:LREvaluator._remove_overlapped", "soynlp/postagger/_template.py:LRTemplateMatcher.generate"]}
{"id": "C40", "title": "EojeolTemplateMatcher candidates spell the eojeol", "statement": "generate never returns an empty list; every candidate's pieces concatenate to the eojeol with consistent offsets, each tagged piece is in the dictionary under its tag; select_best returns a candidate of maximal score.  Exactly: the candidates are, in this order, the eojeol under each of its single tags (or without a tag if it has none), every two-part split that fits an L-R template (shorter left parts first, then template order), and the compound noun and compound adverb, i.e. the left-to-right reading as shortest dictionary words of that tag when it exists and has two or more words.", "quantifier": "all eojeols and dictionaries", "why_tests_cant": "all dictionaries", "anchors": ["soynlp/postagger/_template.py:EojeolTemplateMatcher.generate", "soynlp/postagger/_template.py:EojeolTemplateMatcher._decompose_compound", "soynlp/postagger/_evaluator.py:BaseEvaluator.select_best"]}
{"id": "C41", "title": "lemmatisation is sound", "statement": "Every (stem, ending) returned by Lemmatizer.lemmatize(word) has a known stem and (unless check_only_stem) a known ending, the ending is non-empty, and word is among conjugate(stem, ending). Without user-defined lemmas lemmatize raises exactly when the word contains a character that is not a complete syllable, and knowing more stems and endings never loses a pair.", "quantifier": "all words, stem and ending sets", "why_tests_cant": "all words", "anchors": ["soynlp/lemmatizer/_lemmatizer.py:Lemmatizer.lemmatize", "soynlp/lemmatizer/_lemmatizer.py:lemma_candidate"]}
{"id": "C42", "title": "conjugation only touches the boundary", "statement": "Every surface form of conjugate(stem, ending) starts with stem minus its last two characters (minus its last one unless the stem ends in 르), ends with ending minus its first character, and its length is len(stem)+len(ending) or one less; with and without enforced vowel harmony.", "quantifier": "all stems and endings", "why_tests_cant": "all stems and endings", "anchors": ["soynlp/lemmatizer/_conjugation.py:conjugate"]}
{"id": "C43", "title": "conjugation is total on well-formed input", "statement": "For a non-empty stem of complete syllables and an ending starting with a complete syllable or a jaum, conjugate raises exactly when the ending starts with the bare letter ㅇ and the stem ends in an open ㅡ syllable other than 르 and other than 으 after a syllable (ValueError); otherwise it succeeds, and the result is non-empty whenever the ending starts with a syllable or one of the attaching consonants. An ending that starts with a bare vowel is a ValueError with every stem that ends in a Korean character. An empty ending is an AssertionError, an empty stem an IndexError, non-Korean boundary characters a TypeError. A stem that ends in a bare consonant refuses the attaching consonants (ValueError) and takes every other ending unchanged, except that 어라 becomes 아라; a stem that ends in a bare vowel raises a ValueError exactly where the ending would have to merge into that vowel, and otherwise takes the ending in the same way. conjugate_chat gives at least the forms of conjugate, but it raises a ValueError for an ending that starts with ㄸ, ㅃ or ㅉ, which conjugate accepts.", "quantifier": "all such stems and endings", "why_tests_cant": "11172x11202 boundary pairs", "anchors": ["soynlp/lemmatizer/_conjugation.py:conjugate"]}
{"id": "C44", "title": "lemmatisation recovers what conjugation produced", "statement": "For stems and endings of complete syllables (the ending may start with a bare consonant, its first syllable does not end in ㅎ), each surface of conjugate(stem, ending) made by one of the rule pairs (regular, ㄷ, 르, ㅂ, attaching consonant, ㅅ, 푸, ㅜ+ㅓ, ㅗ+ㅏ, ㅡ, 하+아, ㅎ drop and merge, ㅣ+ㅓ) has a split on which lemma_candidate returns (stem, ending), and lemmatize returns the pair if both are known.  Without user-defined lemmas this is exact: on a word of complete syllables lemmatize returns (stem, ending) iff both are known, the word is a form of conjugate(stem, ending) made by one of these pairs, and the ending does not start with a syllable ending in ㅎ; any other form is never taken apart (갔다 does not give 가 + 았다).", "quantifier": "all stems and endings in the class", "why_tests_cant": "all stems and endings", "anchors": ["soynlp/lemmatizer/_lemmatizer.py:lemma_candidate", "soynlp/lemmatizer/_conjugation.py:conjugate"]}
{"id": "C45", "title": "LRNounExtractor assigns each eojeol to one noun", "statement": "The frequency reported for a noun is the total count of the eojeols whose longest extracted-noun prefix it is; so frequencies sum to at most the number of counted eojeols; extraction leaves the graph as it was.", "quantifier": "all corpora and noun sets", "why_tests_cant": "all corpora", "anchors": ["soynlp/noun/_noun_ver1.py:LRNounExtractor._to_NounScore"]}
{"id": "C46", "title": "noun prediction scores are bounded", "statement": "LRNounExtractor_v2.predict returns a score in [-1,1] and a support between 0 and the total count of the word's right parts; with too few right parts as evidence the score is 0 unless the word is very often a whole eojeol, stands mostly alone, or has right parts beginning with two different characters; LRNounExtractor.predict is a weighted mean of feature coefficients with known ratio in [0,1]; a word with too few right parts gets (0,0) without a noun table, and with one the value of the best cut into noun + noun or noun + feature (highest score, then shortest first part); is_noun compares with >=; before training AttributeError.", "quantifier": "all graphs and feature sets", "why_tests_cant": "all graphs", "anchors": ["soynlp/noun/_noun_ver2.py:LRNounExtractor_v2.predict", "soynlp/noun/_noun_ver1.py:LRNounExtractor.predict"]}
{"id": "C47", "title": "noun post-processing only removes, for the stated reason", "statement": "detaching_features, ignore_features and check_N_is_NJ return a sub-dictionary with unchanged scores; a word is removed iff it splits into a candidate noun plus a feature of length >= 2 (resp. is a feature, resp. is noun+josa with a more frequent noun having enough josa). The default pipeline runs the three in this order; explicit choices are rejected with TypeError.", "quantifier": "all noun dictionaries and feature sets", "why_tests_cant": "all dictionaries", "anchors": ["soynlp/noun/_noun_postprocessing.py:detaching_features", "soynlp/noun/_noun_postprocessing.py:ignore_features", "soynlp/noun/_noun_postprocessing.py:check_N_is_NJ"]}
{"id": "C48", "title": "domain feature extraction uses noun scores", "statement": "extract_domain_pos_features finds features from nouns with score >= min_noun_score and frequency >= min_noun_frequency. (False: the tuple order is swapped, so with the extractor's own (frequency, score<=1) table and any min_noun_frequency > 1 the result is always empty.)", "quantifier": "all prediction tables and graphs", "why_tests_cant": "all tables", "anchors": ["soynlp/noun/_josa.py:extract_domain_pos_features"]}
{"id": "C49", "title": "compound nouns are chains of nouns", "statement": "LRNounExtractor_v2.decompose_compound(word) returns (word,) or positively scored known nouns that concatenate to the first blank-separated piece of the word, or (two or more) to that piece minus a trailing positive feature; exactly: a first piece of at most two characters is never decomposed, a longer one is cut as in C15 among substrings of two to ten characters, its last piece is dropped as a particle if it is a positive feature and at least two pieces stand before it, and (word,) is returned as soon as one of the remaining pieces has no positive score; IndexError for a blank word, AttributeError before compound extraction. extract_compounds finds exactly the texts of the chains into which left parts of >= 4 characters that are not nouns decompose; count = times these were whole eojeols, score = largest member score, stored as (score, count). Because extract() filters the first component by min_noun_frequency, with min_noun_frequency > 1 no compound is ever reported and an accepted noun with the same text is dropped too. After training on sentences extract() never raises, except ZeroDivisionError when verbose and no eojeol was counted.", "quantifier": "all words, score tables, feature sets, graphs and corpora", "why_tests_cant": "all words, all score tables and all corpora", "anchors": ["soynlp/noun/_noun_ver2.py:LRNounExtractor_v2.decompose_compound", "soynlp/noun/_noun_ver2.py:LRNounExtractor_v2._parse_compound", "soynlp/noun/_noun_ver2.py:LRNounExtractor_v2.extract_compounds", "soynlp/noun/_noun_ver2.py:LRNounExtractor_v2.extract"]}
{"id": "C50", "title": "predicators are partitioned into adjectives and verbs", "statement": "In the separation done by PredicatorExtractor.extract every lemma of every predicator is put into exactly one of adjectives and verbs under the same word and frequency, and nothing else is; it goes to the verbs iff its stem is in the verb dictionary, or is not in the adjective dictionary, does not end like an adjective stem, and either ends like a verb stem or has at least two different verb-only forms among the predicators. With stems in the dictionaries, or written in complete syllables, it never raises.", "quantifier": "all predicator tables and dictionaries", "why_tests_cant": "all tables and dictionaries", "anchors": ["soynlp/predicator/_predicator.py:PredicatorExtractor._separate_adjective_verb", "soynlp/predicator/_adjective_vs_verb.py:rule_classify"]}
{"id": "C51", "title": "RegexTokenizer on Latin text", "statement": "For every text, the tokens containing a Latin letter are, in order, exactly the matches re.findall gives for the English pattern of the tokenizer, and a Latin word standing alone is cut just behind its last letter s if that is neither its first nor its last letter ('passing' -> 'pass','ing') and nowhere else. In a text without quotes and square brackets the Latin tokens are those of its maximal Latin runs each taken by itself; in texts without s they are exactly the maximal runs of Latin letters. (The naive claim that Latin words stay whole is refuted with a witness.)", "quantifier": "all strings", "why_tests_cant": "every interleaving of scripts", "anchors": ["soynlp/tokenizer/_tokenizer.py:RegexTokenizer"]}
{"id": "C52", "title": "NounMatchTokenizer: when an eojeol is returned whole", "statement": "NounMatchTokenizer.tokenize of a single eojeol returns exactly that eojeol if and only if it has 3 to 10 characters, its score is positive and no part of it of two or more characters scores higher. An eojeol of one or two characters yields no noun, whatever the scores. (So the naive claim that an eojeol that is itself a positively scored noun is output is refuted.)", "quantifier": "all score tables and eojeols", "why_tests_cant": "all tables", "anchors": ["soynlp/tokenizer/_noun_tokenizer.py:NounMatchTokenizer.tokenize", "soynlp/tokenizer/_tokenizer.py:MaxScoreTokenizer._recursive_tokenize"]}
{"id": "C53", "title": "WordExtractor.extract applies exactly the stated thresholds", "statement": "word_scores() of any trained extractor raises nothing, has an entry exactly for the table words within the length limits, each holding cohesion_score(w), the single-word entropies/varieties and the counts; extract(scores) returns exactly the scored words passing every threshold and, with remove_subwords, not absorbed by a passing word one character longer, with unchanged scores.", "quantifier": "all trained states (any sequence of train calls), all score tables, all thresholds, all words, any enumeration order of the word set", "why_tests_cant": "the filter's result depends on every pair of words of the table and on the processing order; tests see a few corpora", "anchors": ["soynlp/word/_word.py:WordExtractor.extract", "soynlp/word/_word.py:WordExtractor.word_scores", "soynlp/word/_word.py:WordExtractor.all_cohesion_scores", "soynlp/word/_word.py:WordExtractor.words"]}
{"id": "C54", "title": "v2 nouns are scored on the eojeols no longer noun took", "statement": "LRNounExtractor_v2 trained on sentences holds, for every left/right cut within the length limits, the number of times the eojeol occurs (in the sentences as given, and in the normalised ones exactly when ensure_normalized is set), less what is forgotten at filtering checkpoints, where a count below the minimum is dropped. extract scores each left part of an eojeol whose right part is a positive feature exactly as predict() would on a graph holding only the eojeols that no longer accepted word was split off; the table is unique (set enumeration order is irrelevant); supports of accepted words sum to at most the number of eojeols; the result is exactly the accepted words and compounds that are frequent enough, are neither an accepted word followed by a particle (both of at least two characters) nor a particle, and are not a more frequent such word, one that at least five shipped particles follow, with a shipped particle that is no noun suffix; features are unchanged, the graph is given back as trained if asked, and the reported coverage counts exactly the eojeols covered by a reported noun.", "quantifier": "all eojeol counters, feature sets, parameters, thresholds and set enumeration orders", "why_tests_cant": "quantifies over every corpus and every set iteration order", "anchors": ["soynlp/noun/_noun_ver2.py:LRNounExtractor_v2.extract", "soynlp/noun/_noun_ver2.py:LRNounExtractor_v2._batch_predicting", "soynlp/noun/_noun_ver2.py:LRNounExtractor_v2._check_covered_eojeols"]}
{"id": "C55", "title": "noun predictor files are merged, not overwritten", "statement": "LRNounExtractor: a right part has a coefficient iff some readable predictor file gives it a score before its first malformed line, and it is the largest such score over all files in any order (unreadable files and the rest of a malformed file are silently ignored). LRNounExtractor_v2: loading raises if a file is missing, otherwise pos / neg / common features are disjoint, duplicate-free and exactly the features listed only positive, only negative, in both; _append_features keeps old features, moves nothing, and leaves the sets disjoint iff no new feature was already in one of the two other sets.", "quantifier": "all predictor files (any lines), all orders of files, all feature sets", "why_tests_cant": "all file contents and orders", "anchors": ["soynlp/noun/_noun_ver1.py:LRNounExtractor._load_predictor", "soynlp/noun/_noun_ver2.py:LRNounExtractor_v2._load_predictor", "soynlp/noun/_noun_ver2.py:LRNounExtractor_v2._append_features"]}
{"id": "C56", "title": "extracted predicators are exactly the readable words", "statement": "PredicatorExtractor.extract, with the stems and endings it knows (from the dictionaries or learnt), reports only words it was given (or trained words with a count above min_predicator_frequency in complete syllables), with their count, that are not noun + josa, and with pairs of a known stem and known ending that conjugate to the word; a word is reported with all readings offered by the lemmatiser on any split, minus those whose ending looks like a piece of nouns, or not at all; it is reported if two readings are left, or one is left and no two readings with the same ending are taken back; a single reading left is lost if every reading taken back shares its ending with another one, and in between it depends on set order. Each reading goes to exactly one of adjectives and verbs: to the verbs iff its stem is taken for a verb stem (C50; for stems of the dictionaries: iff it is in the verb dictionary). Endings given up stay forgotten, coverage counts every word with a reading. It raises iff a word that is not noun + josa has a character that is no complete syllable, or verbose and trained on nothing, or untrained. Training keeps words with count >= the minimum (at least 2 for sentences) and changes the caller's counter; nouns that are a stem minus its last (two) characters are forgotten.", "quantifier": "all words, counts, dictionaries, set enumeration orders", "why_tests_cant": "all dictionaries, corpora and enumeration orders", "anchors": ["soynlp/predicator/_predicator.py:PredicatorExtractor.extract", "soynlp/predicator/_predicator.py:PredicatorExtractor.train", "soynlp/predicator/_predicator.py:PredicatorExtractor._as_lemma_candidates", "soynlp/predicator/_predicator.py:PredicatorExtractor._remove_wrong_eomis"]}
{"id": "C57", "title": "conjugation gives exactly the forms of the rules", "statement": "For a stem ending in a complete syllable, conjugate(stem, ending) returns exactly the forms of every irregular rule that applies (ㄷ, 르, ㅂ, ㅅ, 우, 오, ㅡ, 거라, 러, 여, ㅎ, 이 rules, each spelled letter by letter), and the regular form (contracted when the vowels agree, joined otherwise) if and only if none applies; for an ending beginning with a bare consonant, exactly the forms where it becomes the final (ㄴㄹㅁㅂㅆ) or, for ㅇ, the listed drops; with vowel harmony the forms are those of the unique harmonised ending; conjugate_chat adds exactly the bare-consonant form. The ㅎ contraction applies before any syllable with vowel ㅓ whatever its initial (파랗+더라 gives 파레라).", "quantifier": "all stems ending in a complete syllable, all endings beginning with a syllable or a bare consonant, both harmony settings", "why_tests_cant": "there are 11172 x 11172 pairs of boundary syllables and unboundedly many texts around them; several rules can fire at once", "anchors": ["soynlp/lemmatizer/_conjugation.py:conjugate", "soynlp/lemmatizer/_conjugation.py:conjugate_chat"]}
{"id": "C58", "title": "Stem surfaces: exact set, exceptions, and what they cover", "statement": "_conjugate_stem(stem) returns exactly the stem plus the surfaces of the listed irregular classes; it raises IndexError for an empty stem, TypeError when the last character (or, before a final 르, the one before) is not Korean, ValueError when it is a bare jamo, and never otherwise. Every form conjugate(stem, ending) yields for an ending whose first syllable has no final or ㅆ (or which starts with a bare ㄴ ㄹ ㅂ ㅆ after an open stem) begins with one of the surfaces, except the contractions 푸+어, ㅡ before a vowel other than ㅓ/ㅡ, ㅎ+아 without final, ㅎ contractions to ㅔ, and ㅣ+어 without final, which are missed.", "quantifier": "all stems (any string), all endings, all forms", "why_tests_cant": "the surfaces depend on all 11172 syllables of the last position and any text before; coverage quantifies over pairs of stem and ending", "anchors": ["soynlp/lemmatizer/_conjugation.py:_conjugate_stem", "soynlp/lemmatizer/_conjugation.py:conjugate"]}
{"id": "C59", "title": "eomi extraction scores ending candidates on unclaimed eojeols and reads them as endings", "statement": "EomiExtractor.extract raises exactly when one of the stems cannot be taken apart (the first such stem's error). Otherwise every right part following a surface of a stem (and matching the condition) gets a prediction that depends only on the eojeols not claimed by a longer accepted candidate: (0,0) with fewer than min_num_of_features surfaces, else score (for-against)/(for+against) and support of the winning side plus unclear. The table is unique. The result has exactly the endings that some accepted candidate yields as a reading (stem, ending) with a known stem, its frequency is the sum of the counts of the readings (an eojeol read with two stems counts twice), its score the frequency weighted mean, and it is reported iff the frequency reaches min_frequency; each reported ending conjugates with a known stem to a counted eojeol. The graph is as before afterwards whatever reset_lrgraph says. predict raises AttributeError outside extract.", "quantifier": "all counters, stems, nouns, conditions, thresholds and enumeration orders of the sets", "why_tests_cant": "the result depends on the interplay of all eojeols and candidates", "anchors": ["soynlp/predicator/_eomi.py:EomiExtractor"]}
{"id": "C60", "title": "stem extraction judges unknown left parts on their right parts and reports readings with unknown endings", "statement": "StemExtractor's known left and right surfaces are exactly the pieces (cut at the stem's length) of the conjugated forms of its stems and endings that are eojeols of the graph. predict(l) is (0,0) when fewer than min_num_of_unique_R_char first letters follow or the entropy of the clear ending surfaces is below the threshold, else the pair of score and support from the counts for and against. For a positive min_stem_score, extract accepts exactly the unknown, not ignored left parts of length other than 1, not ending in 다 and no ending surfaces, whose frequency before known ending surfaces, score and support reach the thresholds; removes those beginning with a surface followed by an ending surface or with an accepted surface of two letters or more; and reports exactly the stems some remaining surface reads as with an ending that is NOT known, with the pair (sum of scores, support mean weighted by scores). So a stem read only with known endings is lost. For every threshold, positive or not, the accepted surfaces are those whose prediction reaches both thresholds and every stem reported is read from a remaining surface with an unknown ending. For a positive threshold the result does not depend on set order (for others the numbers reported may); extracting again gives the same, and the graph is not changed.", "quantifier": "all counters, stems, endings, ignore lists, thresholds and set orders (reported numbers and order independence: positive score thresholds)", "why_tests_cant": "depends on all eojeols and on set order", "anchors": ["soynlp/predicator/_stem.py:StemExtractor"]}
{"id": "C61", "title": "training a predicator extractor with extract_eomi / extract_stem adds exactly the learnt endings and stems", "statement": "After PredicatorExtractor.train has counted the eojeols, and with extract_eomi or extract_stem set, it looks only at the counted eojeols of at least two letters that begin with no known noun of two letters or more. The set of endings becomes exactly the old endings plus those EomiExtractor finds there (C59), only if extract_eomi; the stems become exactly the old stems plus those StemExtractor finds there with the endings just learnt counted as known (C60), only if extract_stem; nothing else about the extractor changes and nothing is ever removed. Training raises at this point exactly when extract_eomi is set and some stem is not Hangul syllables that can be taken apart.", "quantifier": "all counters, nouns, stems, endings, thresholds (positive stem score), flags and set orders", "why_tests_cant": "ranges over all counters and dictionaries and over set iteration order", "anchors": ["soynlp/predicator/_predicator.py:PredicatorExtractor.train", "soynlp/predicator/_predicator.py:PredicatorExtractor._prepare_predicator_lrgraph"]}
{"id": "C62", "title": "the left-right tokenizer chooses exactly the best non-overlapping words", "statement": "For every pair of dictionaries, preferences and thresholds, MaxLRScoreTokenizer.tokenize(sent) returns, eojeol by eojeol, the tokens of exactly these spans: among all pairs of a known left word and an optional known right word (no single letter alone), drop each whose left word lies strictly inside the left word of a lower-ranking pair scoring nearly as well; drop each whose right word runs into a remaining left word that is ensured or clearly better; of the rest choose greedily by value (both scores, the left twice if there is no right word, plus preferences; ties by left score, right score, beginning, longer left word, earlier end) those overlapping no better chosen one. What lies between, and everything from the end of the last chosen LEFT word, is tokenised by the right words alone; if a piece of that is itself a right word the call raises AttributeError. If a good left word is compared by ratio with a longer one around it that scores exactly -0.00001, before a longer word scoring nearly as well is found, the call raises ZeroDivisionError. The first eojeol that raises decides; nothing else is raised. The constructor's dictionaries: a word's score is the one given by the caller (1 if words without scores are given), else the one from the tokenizer_builder, else 1 if it is a preferred word; a graph whose non-empty row sums to 0 raises ZeroDivisionError, a builder's exception comes through, and nothing else raises.", "quantifier": "all dictionaries, preferences, thresholds and sentences", "why_tests_cant": "ranges over all dictionaries, scores and sentences, including ties", "anchors": ["soynlp/tokenizer/_tokenizer.py:MaxLRScoreTokenizer"]}
{"id": "C63", "title": "Which analysis the template tagger outputs", "statement": "The tagger with EojeolTemplateMatcher and the default SimpleEojeolEvaluator outputs, for each eojeol, the first analysis in this order, and no other: the eojeol as a noun; noun + josa with the shortest noun; noun + verb or noun + adjective with the shortest noun (verb first); the eojeol as one verb, adjective, adverb or exclamation (the tag added to the dictionary first); two adverbs; two nouns; three adverbs; the unknown word. Compounds (two nouns, two or three adverbs) are read greedily, each part being the shortest dictionary word that starts the rest; a compound of three or more nouns or four or more adverbs is never output.", "quantifier": "every dictionary reachable by any history of calls, every non-empty eojeol", "why_tests_cant": "The order of preference is implied by eight floating weights and the order in which candidates are generated; tests can only compare a few dictionaries, while the claim covers every competition between analyses.", "anchors": ["soynlp/postagger/_template.py:EojeolTemplateMatcher", "soynlp/postagger/_evaluator.py:SimpleEojeolEvaluator", "soynlp/postagger/_tagger.py:SimpleTagger"]}
{"id": "C64", "title": "accessor variety and branching entropy count the corpus' neighbours", "statement": "After training without intermediate pruning, for every string w the left accessor variety is the number of characters c such that c+w is a kept suffix plus the number of characters that precede w across at least two word boundaries (sentences read as circles), the right one symmetrically, and the branching entropies are the Shannon entropies of exactly those counts.  The same holds after any history of train calls with any pruning and cumulate arguments, completed or cut short by an exception of the corpus, with the counts that such a history keeps (a count is thrown away by a pruning or at the end of a call that finds it too small, and by a call that does not cumulate).", "quantifier": "all corpora, parameters and strings", "why_tests_cant": "all corpora and words; the number is a sum over every possible neighbouring character", "anchors": ["soynlp/word/_word.py:WordExtractor.train", "soynlp/word/_word.py:WordExtractor.accessor_variety", "soynlp/word/_word.py:WordExtractor.branching_entropy"]}
{"id": "C65", "title": "lemma candidates of chat spellings", "statement": "lemma_candidate_chat(l, r) returns exactly what lemma_candidate(l, r) returns, plus, when r is empty and the last syllable of l ends in one of ㄷ ㅂ ㅅ ㅇ ㅋ ㅎ, what lemma_candidate returns for l with that final consonant removed; every pair returned has a non-empty ending and conjugates to the word or to the word without that consonant; on complete syllables it never raises; Lemmatizer.lemmatize checks endings unless told otherwise.", "quantifier": "all words of complete syllables and all splits", "why_tests_cant": "11172 syllables in every position", "anchors": ["soynlp/lemmatizer/_lemmatizer.py:lemma_candidate_chat", "soynlp/lemmatizer/_lemmatizer.py:Lemmatizer.lemmatize"]}
{"id": "C66", "title": "branching entropy lies between 0 and the log of the accessor variety", "statement": "For every word extractor reached by any sequence of trainings, completed or cut short by an exception of the corpus, and every word, on each side the branching entropy is at least 0 and at most the natural logarithm of the accessor variety; it is 0 exactly when the accessor variety is at most 1, and equals the bound exactly when all neighbours are equally frequent.", "quantifier": "all training histories, parameters and strings", "why_tests_cant": "a bound over every possible distribution of neighbour counts", "anchors": ["soynlp/word/_word.py:_entropy", "soynlp/word/_word.py:WordExtractor.branching_entropy", "soynlp/word/_word.py:WordExtractor.accessor_variety"]}
{"id": "C67", "title": "pmi returns exactly the pointwise mutual information above the threshold", "statement": "pmi(X, py, min_pmi, alpha, beta) on a non-empty count matrix stores the position (i,j) exactly when X[i,j] > 0, the context has positive probability and log(p_xy/(p_x (p_y+alpha))) >= min_pmi, and stores that value; px and py are the marginals (py raised to beta and renormalised if beta < 1, or the given one) and sum to 1. The result is unchanged by multiplying all counts by a positive number and, without smoothing, transposes with the matrix. beta outside (0,1] is refused. pmi_memory_friendly fails its own assertion on every matrix that has not exactly one column, whatever py of shape (1, k) it is given; on one column it raises TypeError if py is not given and beta < 1, and otherwise returns the entries of pmi strictly above the threshold.", "quantifier": "all count matrices, thresholds, smoothing parameters and context distributions", "why_tests_cant": "all matrices of every shape; real-valued parameters", "anchors": ["soynlp/word/_pmi.py:pmi", "soynlp/word/_pmi.py:pmi_memory_friendly", "soynlp/word/_pmi.py:_as_diag", "soynlp/word/_pmi.py:_logarithm_and_ppmi"]}
{"id": "C68", "title": "WordExtractor save/load round trip", "statement": "Loading a file written by WordExtractor.save restores every attribute (all thresholds and the four count tables) whatever the receiving object held, so continuing training or extraction from the reloaded object gives what the original would give.", "quantifier": "all extractors, receivers and later trainings", "why_tests_cant": "all states and continuations", "anchors": ["soynlp/word/_word.py:WordExtractor.save", "soynlp/word/_word.py:WordExtractor.load"]}
{"id": "C69", "title": "NewsPOSExtractor.extract partitions and accounts for the corpus", "statement": "A returned noun is not also returned as adjective, verb or adverb; the confused nouns are exactly those that would be. Every word reported as irrecognizable is an eojeol of the corpus with its exact frequency, has at least two characters, is not known, not a particle or ending, not noun + ending, not one character + recognised word and is not cut into known nouns (but for a recognised last piece) by the noun tokenizer. Every other eojeol is accounted for: as a returned word, noun + particle/adjective/verb, one-character noun + word, particle, ending, single character, or compound of at least two nouns. Conversely every eojeol that meets those conditions is reported as irrecognizable.", "quantifier": "all trained extractors and all corpora of non-empty blank-free eojeols", "why_tests_cant": "all tables, all corpora", "anchors": ["soynlp/pos/_news_pos.py:NewsPOSExtractor.extract", "soynlp/pos/_news_pos.py:NewsPOSExtractor._count_matched_patterns"]}
{"id": "C70", "title": "NewsPOSExtractor.extract frequencies", "statement": "Adverbs are counted exactly as often as they occur as an eojeol. Adjectives and verbs are eojeols; their frequency is at least that of the eojeol and at most the total frequency of recognised eojeols ending with them. A noun's frequency is at least that of the noun as an eojeol (for nouns known beforehand) and at most three times the total frequency of recognised eojeols beginning with it (and the factor three occurs). Exactly: an adjective (verb) is counted as often as it occurs alone, plus the unknown eojeols whose shortest reading as noun that occurs alone + known adjective (verb) that occurs alone ends with it, plus the eojeols left over that are one character + it; a noun is counted as often as it occurs alone (if known), plus, once for each of particle, adjective and verb, the unknown eojeols whose shortest reading as noun + such a word begins with it, plus, once for each kind, the left-over eojeols that are this one character + a recognised word, plus the remaining eojeols that are a compound of it.", "quantifier": "all trained extractors and corpora", "why_tests_cant": "all tables, all corpora", "anchors": ["soynlp/pos/_news_pos.py:NewsPOSExtractor.extract", "soynlp/pos/_news_pos.py:NewsPOSExtractor._match_noun_and_word", "soynlp/pos/_news_pos.py:NewsPOSExtractor._match_syllable_noun_and_r"]}
{"id": "C71", "title": "Origin of the words and lemmas NewsPOSExtractor.extract returns", "statement": "Every returned adjective/verb has lemmas: its old ones, or those of a compound of two known predicators with a new stem, or lemmas with known stem and ending that conjugate to it; irrecognizable words admit none of these. Endings and particles are returned unchanged; the stems are the old ones and those of the newly found words. The nouns are the given nouns that occur alone, single characters in front of a recognised word, and compounds of at least two of the former; a noun that never occurs alone is not returned. These descriptions are exact: a word is returned as adjective, verb or noun exactly if it has such an origin, and a noun is set aside as confused exactly if it is also returned as adjective, verb or adverb.", "quantifier": "all trained extractors and corpora", "why_tests_cant": "all tables, all corpora", "anchors": ["soynlp/pos/_news_pos.py:NewsPOSExtractor._parse_predicator_compounds", "soynlp/pos/_news_pos.py:NewsPOSExtractor._lemmatizing_predicators", "soynlp/pos/_news_pos.py:NewsPOSExtractor._match_compound_nouns", "soynlp/pos/_news_pos.py:NewsPOSExtractor._as_predicator"]}
{"id": "C72", "title": "NewsPOSExtractor.extract never raises on Korean lemmas; stem_to_adverb; repeated calls", "statement": "Extract raises exactly when some eojeol that is neither known nor noun + ending is read as known predicator + known adjective (verb) form and one lemma of that form has an empty ending, a stem (with the first part in front) not ending in a Korean character, or an ending not beginning with one although the stem ends in ㄹ, ㅂ or the vowel ㅡ; so with Korean lemmas it raises for no corpus. With verbose=True (the default) it also raises ZeroDivisionError exactly when the corpus has no eojeols. stem_to_adverb raises exactly on an empty stem and otherwise returns the stems ending in 하 with each suffix in its place. extract changes the object: a second call may return words that the first reported as irrecognizable.", "quantifier": "all trained extractors, corpora, stem and suffix sets", "why_tests_cant": "all tables, all corpora", "anchors": ["soynlp/pos/_news_pos.py:NewsPOSExtractor.extract", "soynlp/pos/_adverb.py:stem_to_adverb"]}
{"id": "C73", "title": "ChatPOSExtractor.extract: the parts of the result", "statement": "Nouns and confused nouns are disjoint; a noun is confused exactly if it is also a returned adjective, verb or adverb, or has more than two characters and ends with a recognised word. Nouns are exactly the known nouns that occur alone and single characters in front of a recognised word in an eojeol without another reading; no compounds. An eojeol is reported irrecognizable, with its exact frequency, exactly if it has at least two characters, is not known, not a chat particle or remaining ending, not noun + ending, not a returned predicator and not one character + recognised word.", "quantifier": "all trained extractors, chat particle lists and corpora", "why_tests_cant": "all tables, all corpora", "anchors": ["soynlp/pos/_chat_pos.py:ChatPOSExtractor._count_matched_patterns", "soynlp/pos/_chat_pos.py:find_noun_phrase"]}
{"id": "C74", "title": "ChatPOSExtractor.extract: stems, endings, lemmas, frequencies; never raises on Korean lemmas", "statement": "No stem is ever learned (the set of stems returned is the trained one); the particles are those of the chat list; exactly those endings are dropped that occur more often in the newly found compounds than in the known words of the same kind. The returned adjectives and verbs are exactly the known ones that occur, the compounds left after dropping lemmas of stems at least nine tenths of whose frequency has endings beginning with a consonant letter, and words with a lemma of known stem and remaining ending; each carries the lemmas of that origin. Frequencies are bounded, and given exactly, as in C70 (without compounds). Extract raises exactly as in C72, except that stems ending in 업, 닿 or 땋 are never tested; with Korean lemmas it raises for no corpus.", "quantifier": "all trained extractors, chat particle lists and corpora", "why_tests_cant": "all tables, all corpora", "anchors": ["soynlp/pos/_chat_pos.py:ChatPOSExtractor._match_predicator_compounds", "soynlp/pos/_chat_pos.py:ChatPOSExtractor._parse_predicator_compounds", "soynlp/pos/_chat_pos.py:find_wrong_stem", "soynlp/pos/_chat_pos.py:find_wrong_eomi", "soynlp/pos/_chat_pos.py:delete_predicators_having_wrong_stem"]}
{"id": "C75", "title": "tokenizer.normalize works word by word, never raises, and unfolds letters without changing them", "statement": "soynlp.tokenizer.normalize(sentence, num_repeat) never raises. Its result has one word per word of the sentence, in order, joined by single blanks, and each is determined by the word it stands for: a syllable followed by its own final consonant is split into the open syllable and that consonant, an open syllable followed by its own vowel is written as two letters; then, if num_repeat is positive, rows of four or more equal groups of 4, 3, 2 and 1 word characters (in that order, leftmost first, the whole row) are written num_repeat times. With num_repeat zero or negative every word keeps exactly its letters.", "quantifier": "all sentences, all integers num_repeat, all word-character classes", "why_tests_cant": "all Unicode strings and repeat counts; regex scanning interacts with overlapping repetitions", "anchors": ["soynlp/tokenizer/_normalizer.py:normalize", "soynlp/tokenizer/_normalizer.py:_normalize_emoji", "soynlp/tokenizer/_normalizer.py:_remove_repeat"]}
{"id": "C76", "title": "tokenizer.normalize: bound on runs, length, fixed words, and the limits of num_repeat", "statement": "After normalize(sentence, n) with n >= 1 no word character stands more than max(3, n) times in a row inside a word. For n <= 4 no word becomes longer than its number of letters. A word without repetition of four and without unfoldable letters is left alone. For n >= 4 four equal letters become n letters, so the text grows. normalize is not idempotent.", "quantifier": "all sentences, all integers num_repeat", "why_tests_cant": "all strings and repeat counts; the passes undo each other's guarantees", "anchors": ["soynlp/tokenizer/_normalizer.py:normalize", "soynlp/tokenizer/_normalizer.py:repeatchars_patterns"]}
{"id": "C77", "title": "NewsNounExtractor.train counts exactly the occurrences of the corpus", "statement": "After train(sentences) on a non-empty corpus, the frequency of a left part is the number of word occurrences that begin with it (non-empty prefix of at most max_left_length characters followed by at most max_right_length), the L-R graph holds for each left part exactly the counts of what follows it, the R-L graph is its transpose without the empty right part, and the eojeol table counts exactly the words of at most max_left_length + max_right_length characters. A previous training leaves no trace, the noun table and the right-part scores are kept, the order of the words and their spread over sentences do not influence any count or prediction, and an empty corpus raises ValueError.", "quantifier": "all corpora, all length limits, all previous states", "why_tests_cant": "all corpora and limits; histories of trainings", "anchors": ["soynlp/noun/_noun_news.py:NewsNounExtractor.train", "soynlp/noun/_noun_news.py:NewsNounExtractor._build_graph", "soynlp/noun/_noun_news.py:NewsNounExtractor.frequency"]}
{"id": "C78", "title": "NewsNounExtractor.predict is the occurrence-weighted mean of the right-part scores", "statement": "predict(l) never raises after a training. Its score is the mean of the scores of what follows l, once for each occurrence whose rest has a score (0 if there is none), hence between the smallest and the largest coefficient; frequency is the number of occurrences; the feature, eojeol and unique-positive proportions are the stated shares of occurrences (of different rests) and lie in [0, 1]. A predictor file can never give the empty right part a score.", "quantifier": "all corpora, all coefficient tables and predictor files, all words", "why_tests_cant": "all corpora and coefficient tables", "anchors": ["soynlp/noun/_noun_news.py:NewsNounExtractor.predict", "soynlp/noun/_noun_news.py:NewsNounExtractor._load_predictor"]}
{"id": "C79", "title": "Which words NewsNounExtractor.extract returns, exactly", "statement": "If min_frequency >= 1 or one of the two other thresholds is non-negative, extract after train never raises. The resulting table consists of the words of earlier extractions, two-character nouns before a known verb, the candidates (given words or all left parts) above the thresholds that pass every filter rule, and the whole eojeols that are compounds of known words, where filters that look at the words accepted so far see them in corpus order. Every value is the prediction from the current training, also for words of earlier extractions, none of which is dropped. train_extract is train followed by extract; by default with min_frequency 3, min_noun_score 0.4, no given candidates.", "quantifier": "all corpora, thresholds, candidate lists, previous states", "why_tests_cant": "the filters read tables that are being built; histories of extractions; all corpora", "anchors": ["soynlp/noun/_noun_news.py:NewsNounExtractor.extract", "soynlp/noun/_noun_news.py:NewsNounExtractor.train_extract", "soynlp/noun/_noun_news.py:NewsNounExtractor._postprocessing", "soynlp/noun/_noun_news.py:NewsNounExtractor._post_eojeol_analysis", "soynlp/noun/_noun_news.py:NewsNounExtractor._hardrule_suffix_filter"]}
{"id": "C80", "title": "Limits of NewsNounExtractor's interface", "statement": "min_feature_proportion has no effect anywhere in [0, 1): it is compared with the frequency. A non-empty base_noun_dictionary makes the constructor raise NameError; without one construction succeeds with an empty noun table, the coefficient of a right part is the largest one the predictor files give it (C55), the particles are 는 and the right parts with a coefficient above 0.1, and the predicate words are the first tab-separated fields of the lines of the verb and adjective files (nothing for a file that cannot be read). extract before train raises AttributeError. train_extract raises ValueError exactly for an empty corpus and otherwise at most ZeroDivisionError, only if min_frequency < 1 and both other thresholds are negative.", "quantifier": "all states, corpora, thresholds and dictionaries", "why_tests_cant": "absence of an effect and absence of exceptions over all inputs", "anchors": ["soynlp/noun/_noun_news.py:NewsNounExtractor.__init__", "soynlp/noun/_noun_news.py:NewsNounExtractor.extract"]}
{"id": "C81", "title": "The regular expressions do what their literals say", "statement": "For every text, each findall, sub and finditer of soynlp gives what Python's leftmost, greedy, backtracking search gives for the pattern literal in the source: the five patterns of RegexTokenizer (signed decimals; runs of syllables, consonants and vowels; Latin words whose first alternative ends in an optional quote, an s and any closing brackets), the class filters and repeat patterns of the normalizers (in text_filter the hyphen forms a range from apostrophe to opening parenthesis and is itself removed), the four repeat patterns of the tokenizer normalizer, and whitespace collapsing.", "quantifier": "all texts, all normalizer options and repeat counts; any \\w and any \\d that excludes the dot and the signs", "why_tests_cant": "equality of two functions on all strings, with backtracking and back references", "anchors": ["soynlp/tokenizer/_tokenizer.py:RegexTokenizer.__init__", "soynlp/normalizer/_normalizer.py", "soynlp/tokenizer/_normalizer.py", "soynlp/hangle/_hangle.py:normalize", "soynlp/hangle/_hangle.py:ConvolutionHangleEncoder.normalize"]}
{"id": "C82", "title": "Training a part-of-speech extractor, from the sentences to the tagged words", "statement": "NewsPOSExtractor.train_extract(sentences) (and ChatPOSExtractor's) succeeds exactly when there is a sentence, no dictionary stem is empty, every dictionary stem can be conjugated (if endings are learnt), and, unless verbose is False, some eojeol is frequent enough and some eojeol occurs at least twice in the normalised text (otherwise a progress message divides by zero); extract never fails after a successful train. The eojeol table holds exactly the eojeols of at most 19 characters that reach min_eojeol_frequency, with their number of occurrences (less what is forgotten at every 500000th sentence, where a count below min_eojeol_frequency is dropped); the nouns known after training are exactly those LRNounExtractor_v2 finds in that table (C54), the endings exactly those of the dictionary and those learnt (C59) that are not given up (C56), and the predicators exactly the frequent words of the normalised text with readings not taken back (C56); each adjective and verb reported comes with lemmas whose conjugation gives the word, or the word behind a known prefix, with known endings; adverbs are exactly the dictionary adverbs and 하-stems written with 히, with exact frequencies; what is reported as irrecognizable has its exact frequency; every other counted eojeol is explained. Whatever order sets are enumerated in.", "quantifier": "all corpora, dictionaries, arguments and set orders", "why_tests_cant": "composition of four trained components over all corpora and hash orders", "anchors": ["soynlp/pos/_news_pos.py:train", "soynlp/pos/_news_pos.py:train_extract", "soynlp/pos/_news_pos.py:_train_noun_extractor", "soynlp/pos/_news_pos.py:_train_predicator_extractor", "soynlp/pos/_chat_pos.py"]}
{"id": "C83", "title": "EojeolPatternTrainer.train counts beginnings and ends of eojeols exactly", "statement": "train(sents, wordset_l, wordset_r) with word sets given uses them; if one is missing or empty both are found by scanning: the left set is exactly the non-empty beginnings of at most max_left_length characters, the right set exactly the non-empty proper ends of fewer than max_right_length characters, that reach min_frequency among the tokens between blanks. lrgraph[l][r] is the number of whitespace-separated tokens equal to l + r, for every l in the left set of at most max_left_length characters and every r that is empty or in the right set, and has no other entries; rlgraph is its transpose. train raises exactly if verbose is on and there are sentences, and there are fewer than 40 of them or (while scanning) an empty one stands where a progress message is due: ZeroDivisionError, with the graphs untouched.", "quantifier": "all corpora, word sets, thresholds and previous states", "why_tests_cant": "exact counts over every corpus, and the exact set of inputs that raise", "anchors": ["soynlp/tokenizer/_tokenizer_builder.py:EojeolPatternTrainer.train"]}
{"id": "C84", "title": "EojeolPatternTrainer.save and load", "statement": "Whatever was trained successfully can be saved, and loading the file into any trainer restores both graphs entry by entry, their rows in the same order, and every parameter but verbose; the word sets become the keys of the graphs; saving again writes the same file if verbose is the same. save before train raises AttributeError but leaves a file, which loads as two empty graphs. A file loads iff its first line is four integers, its second '# lrgraph', and none of the others begins with '> ' without containing '(' or begins with '  - ' without being followed by a word, exactly one ': ' and an integer. Otherwise load raises ValueError, or StopIteration exactly if the file ends before its second line (and the first one is fine or missing), and leaves the graphs of the trainer as they were.", "quantifier": "all trained states, all states loaded into", "why_tests_cant": "a round trip for every corpus and parameter value", "anchors": ["soynlp/tokenizer/_tokenizer_builder.py:EojeolPatternTrainer.save", "soynlp/tokenizer/_tokenizer_builder.py:EojeolPatternTrainer.load"]}
{"id": "C85", "title": "Sorting a file, checking a directory and finding similar items", "statement": "sort_by_alphabet rewrites a file to its non-blank lines, stripped, in code point order, keeping duplicates; doing it again changes nothing, and a sorted file of stripped lines is left alone. check_dirs creates a directory exactly for paths ./name when '.' does not exist, and then only '.'. most_similar returns an empty list for an unknown query and raises IndexError for an index beyond the rows; otherwise other items with one minus their distance, nearest first, none twice, none nearer left out; all of them for topk <= 0, else topk (or all, if fewer), or topk + 1 when at least topk + 1 others are as near as the query's own row.", "quantifier": "all files, paths, vectors, distances, argsort orders and topk", "why_tests_cant": "idempotence and optimality for every input, whatever order ties are sorted in", "anchors": ["soynlp/utils/utils.py:sort_by_alphabet", "soynlp/utils/utils.py:check_dirs", "soynlp/utils/utils.py:most_similar"]}
{"id": "C86", "title": "The packaged dictionaries are sound inputs", "statement": "A file of stems or endings is loaded exactly if every line is a word and a number (else ValueError), and gives the words whose number reaches the minimum; a file of adverbs exactly if no line is blank (else IndexError). The files that come with soynlp load without an exception: every stem is a non-empty word of complete syllables, every ending goes on in complete syllables after a syllable or one of ㄴ ㄹ ㅁ ㅂ, except ㅔ요 and ㅑ. Every packaged stem conjugates with every packaged ending, with vowel harmony or without, giving a form, except that ㅔ요 and ㅑ raise ValueError with every stem. A NewsPOSExtractor made without arguments therefore trains successfully on exactly the non-empty corpora on which its progress messages do not divide by zero.", "quantifier": "all file texts; all rows of the packaged files and all pairs of them; all corpora, arguments and set orders", "why_tests_cant": "six million pairs of a stem and an ending, and all corpora", "anchors": ["soynlp/predicator/_predicator.py:PredicatorExtractor._load_default_stems", "soynlp/predicator/_predicator.py:PredicatorExtractor._load_default_eomis", "soynlp/pos/_adverb.py:load_default_adverbs", "soynlp/lemmatizer/dictionary/default", "soynlp/postagger/dictionary/default"]}
{"id": "C87", "title": "What the eojeol tagger chooses with its defaults", "statement": "A tagger of EojeolTemplateMatcher(dictionary) and SimpleEojeolEvaluator() analyses every eojeol by the first applicable rule of: (1) the eojeol is a noun; (2) noun + josa with the shortest noun; (3) noun + verb or adjective with the shortest noun, a verb before an adjective; (4) the eojeol under the first of its tags Verb, Adjective, Adverb, Exclamation in the order of the dictionary; (5) two adverbs; (6) two nouns; (7) three adverbs; (8) the whole eojeol without a tag - so an eojeol composed of three or more dictionary nouns, without another reading, is returned as one unknown word. Compounds are found by always cutting off the shortest word. The rules determine the result.", "quantifier": "all dictionaries reachable through the API, all sentences", "why_tests_cant": "all dictionaries and eojeols; which reading wins depends on all the others", "anchors": ["soynlp/postagger/_template.py:EojeolTemplateMatcher", "soynlp/postagger/_evaluator.py:SimpleEojeolEvaluator", "soynlp/postagger/_tagger.py:SimpleTagger.tag"]}
{"id": "C88", "title": "What LREvaluator prefers", "statement": "The score of a candidate is the sum of its features times the weights plus the user's preferences for its two words; the weight named is_verb is applied to adverbs and never to verbs. With the default weights and templates: a tenth per character, 0.3 more for a noun, 0.2 for an adverb, 0.1 for an adjective, 0.15 if there is an R. Therefore, even with scores rounded by up to a hundredth, an eojeol that can be read as a noun of two or more characters and a josa, verb or adjective is tagged as such a pair and nothing else; and an eojeol that is itself a noun is not tagged as that noun if all but its first or last character can be read as noun + josa, verb or adjective.", "quantifier": "all weights, preferences, candidates; all dictionaries, eojeols and roundings", "why_tests_cant": "all dictionaries and eojeols; all roundings of the scores", "anchors": ["soynlp/postagger/_evaluator.py:LREvaluator.evaluate", "soynlp/postagger/_evaluator.py:LREvaluator.select_best", "soynlp/postagger/_template.py:LRTemplateMatcher"]}
{"id": "C89", "title": "LRGraph objects are independent unless built on the same plain dict", "statement": "As long as no two LRGraph objects hold the same dict, any interleaving of calls on several graphs leaves each answering get_r and get_l as if only its own calls had been made; graphs built from sentences, from defaultdicts, or from a plain dict not yet held by another graph are always separate, and building one changes no existing graph. Two graphs built on the same non-empty plain dict share their left-to-right table: while only one of them is changed, the other's get_r follows it but its get_l does not, so the two directions of a graph can disagree (a pair removed through one graph is still listed by the other's get_l); reset_lrgraph on a graph restores both of its directions.", "quantifier": "all graphs, all numbers of graph objects, all interleavings of calls", "why_tests_cant": "Interference depends on which objects share a dict and on the interleaving; tests use one graph at a time.", "anchors": ["soynlp/utils/utils.py: LRGraph.__init__, _check_lrgraph, reset_lrgraph, add_lr_pair, remove_lr_pair, remove_eojeol"]}
{"id": "C90", "title": "What kind of corpus object a trainer is given", "statement": "An iterator (a generator, an open file) is refused with ValueError by EojeolCounter, WordExtractor.train, LRNounExtractor.train, LRNounExtractor_v2.train, NewsNounExtractor.train and PredicatorExtractor.train; a list is used as it is; a DoublespaceLineCorpus with a document after the header trains exactly as the list of the items it yields, except that a sentence corpus is refused with ValueError when the documents allowed by its limits hold no sentence. Bigram.train gives the same for an iterator as for a list. EojeolPatternTrainer.train raises TypeError for an iterator and leaves its graphs as they were. BaseVectorizer.fit_transform and fit_to_file of an iterator raise UnboundLocalError and leave a fitted vectorizer (and no file); of a list they are fit followed by transform or to_file. to_file of an iterator returns normally, having written a header that declares the entries of all documents and no entry. sent_to_word_contexts_matrix never succeeds with an iterator.", "quantifier": "all documents and sentences, all corpus files and limits, all parameters and earlier states", "why_tests_cant": "The outcome depends on how often each function goes through its argument; tests pass lists.", "anchors": ["soynlp/utils/utils.py: check_corpus, DoublespaceLineCorpus, EojeolCounter", "soynlp/vectorizer/_vectorizer.py: BaseVectorizer.fit_transform, fit_to_file, to_file", "soynlp/vectorizer/_word_context.py: sent_to_word_contexts_matrix", "soynlp/tokenizer/_tokenizer_builder.py: EojeolPatternTrainer.train", "soynlp/word/_phrase.py: Bigram.train"]}
{"id": "C91", "title": "Extracting again gives what the first extraction would have given", "statement": "A trained LRNounExtractor is unchanged by any sequence of extract calls (none of which raises). A trained LRNounExtractor_v2 that has been asked to extract any number of times, with any thresholds and reset_lrgraph=True, does on the next extract exactly what it would have done right after training (same nouns, same compounds, same exception), and predict answers as after training. An EomiExtractor that has extracted before extracts as if it had not. PredicatorExtractor (with the stems of its dictionaries) is different: a second extract of the same words succeeds like the first and gives up no further ending, and a word both calls report has the same count and readings, but a word the first call lost can be reported by the second.", "quantifier": "all corpora, parameters, thresholds, sequences of earlier calls, set enumeration orders", "why_tests_cant": "It is about arbitrary histories of calls on a mutable graph shared between extraction steps.", "anchors": ["soynlp/noun/_noun_ver1.py: LRNounExtractor.extract", "soynlp/noun/_noun_ver2.py: LRNounExtractor_v2.extract, predict", "soynlp/predicator/_eomi.py: EomiExtractor.extract", "soynlp/predicator/_predicator.py: PredicatorExtractor.extract"]}
{"id": "C92", "title": "LRNounExtractor_v2: the three ways of training agree, and the caller's graph is given back reset", "statement": "train accepts sentences, an EojeolCounter or an LRGraph. min_eojeol_frequency matters for sentences only. Training with a counter leaves the extractor in the same state as training with the LRGraph made from it (with the extractor's max_left_length and max_right_length), except for the number of eojeols used in reports: the counter's total, respectively the total of the eojeols of at most max_left_length+max_right_length characters. Training with sentences equals training with the counter of these sentences and with the graph of that counter (totals included). train_extract is train followed by extract. The extractor works on the caller's LRGraph itself: after a successful train_extract with reset_lrgraph=True the graph is what its own reset_lrgraph() would make of the graph passed in (so removals the caller had made are undone as well); with reset_lrgraph=False a later reset_lrgraph() gives that same graph.  Defaults: score 3/10, frequency 1, every eojeol counts, the graph is reset.  Several extractors may work on one graph: if it is as just made and no call asks for reset_lrgraph=False, it is the same after every call, and each extractor answers as if only its own calls had been made; after any calls resetting it gives what resetting it before would have given. An extraction with reset_lrgraph=False takes nouns away from the other extractors on that graph.", "quantifier": "all parameters, extractor states, sentences, counters, graphs with a non-empty original (whatever has been removed from them), thresholds, set enumeration orders", "why_tests_cant": "It relates whole states of two different training routes for every corpus, and what is left of a shared mutable graph after any extraction.", "anchors": ["soynlp/noun/_noun_ver2.py: LRNounExtractor_v2.train, train_extract, _train_with_sentences, _train_with_eojeol_counter, _train_with_lrgraph, extract", "soynlp/utils/utils.py: EojeolCounter.to_lrgraph, LRGraph.reset_lrgraph, to_EojeolCounter"]}
{"id": "C93", "title": "PredicatorExtractor: ways of training agree, and train_extract from the sentences to the result", "statement": "train accepts sentences, an EojeolCounter or an LRGraph. Sentences are counted (normalised unless ensure_normalized) and then treated as a counter with minimum 2 on top of the given minimum; a graph is treated as the counter of its eojeols. The counts forget whatever was counted before. train_extract is train followed by extract. From sentences: learning looks at exactly the eojeols of at most 15 characters occurring at least max(min,2) times, with their exact counts, and changes nothing but the known endings and stems, adding those of C61; the words extracted from are those of these eojeols in complete syllables with a count above min_predicator_frequency; the adjectives and verbs reported are as C56 says with the stems and endings known after the learning. It succeeds iff there is a sentence, every known stem can be taken apart (if endings are to be learnt) and, if verbose, some eojeol was kept (otherwise a progress message divides by zero).  Defaults: minimum frequency 2, no words given, more than one occurrence.", "quantifier": "all extractor states, dictionaries, sentences, counters, graphs, thresholds, switches, set enumeration orders", "why_tests_cant": "The claim chains normalisation, counting, two learning stages and the reading of every word; a test fixes one corpus and one set order, the statement ranges over all of them.", "anchors": ["soynlp/predicator/_predicator.py: PredicatorExtractor.train, train_extract, extract, _train_with_sentences, _train_with_eojeol_counter, _train_with_lrgraph, _extract_predicator, _as_lemma_candidates, _separate_adjective_verb"]}
{"id": "C94", "title": "LRNounExtractor.train_extract: from the sentences to the nouns", "statement": "LRNounExtractor.train_extract raises ValueError iff there are no sentences. Otherwise it returns exactly the candidates (by default: the left parts counted) of at least two characters whose score reaches min_noun_score and that are not left out (final '.' or ','; or less cohesive than without the last character and splitting into another scoring word and a right part with a coefficient above the threshold). The score is computed from the eojeols of the corpus: with more than min_num_of_features different right parts after the word, the mean coefficient over the eojeols with a known, unambiguous right part, and the share of these among known and unknown ones; otherwise 0. The frequency is the number of eojeols for which the word is the longest returned word they split after. Defaults: score 1/2, frequency 5, no candidates.", "quantifier": "all parameters, coefficient tables, sentences, thresholds, candidates, set enumeration orders", "why_tests_cant": "The statement fixes the whole result table for every corpus in terms of eojeol counts; tests see single corpora and one set order.", "anchors": ["soynlp/noun/_noun_ver1.py: LRNounExtractor.train_extract, train, extract, predict"]}
{"id": "C95", "title": "the log files account for every candidate and change nothing", "statement": "LRNounExtractor_v2 and EomiExtractor with logpath set return exactly what they return without it, raise where they raise, and leave the same state. Whatever the files held before: the prediction log is a header and one line per entry of the score table (word, support, score), best score first; for the noun extractor the header names the two numbers in the wrong order ('noun score frequency'). The post-processing log has one section per step that ran, in order, under that step's header; each section is sorted and without repetition; and every noun candidate (nouns of the table and compounds) is either returned or listed in exactly one section, exactly once. With the default steps the sections say why: candidate plus positive feature; feature itself; more frequent noun plus particle where the noun was seen with five particles. When finding compounds fails the prediction log is written and the post-processing log is untouched; when a step raises, the sections of the earlier steps are there.", "quantifier": "all trained extractors, thresholds, post-processing lists, previous file contents, set enumeration orders, ways of printing numbers", "why_tests_cant": "That nothing is lost or listed twice between the log and the result is a statement about every corpus and candidate table.", "anchors": ["soynlp/noun/_noun_ver2.py: LRNounExtractor_v2.extract, _post_processing", "soynlp/noun/_noun_postprocessing.py: write_log", "soynlp/predicator/_eomi.py: EomiExtractor.extract"]}
{"id": "C96", "title": "EojeolPatternTrainer.train_hits never returns", "statement": "train_hits raises however it is called: TypeError on a trainer object; called on the class with two graphs it raises NameError (its body uses self, which is not a parameter) if it does not raise before. With the graphs of a successful training, a positive sum_of_rank and max_iter >= 1 it raises ZeroDivisionError if no counted token has a right part, and NameError otherwise.", "quantifier": "all calls, graphs and parameters; all trainings", "why_tests_cant": "A test can only show one call that raises, not that there is none that returns.", "anchors": ["soynlp/tokenizer/_tokenizer_builder.py: EojeolPatternTrainer.train_hits"]}
{"id": "C97", "title": "PredicatorExtractor objects are independent unless they share a set of endings or a counter", "statement": "As long as no two PredicatorExtractor objects hold the same set of endings or the same EojeolCounter, and no counter is passed to two of them, any interleaving of train and extract calls (none raising) leaves each in the state, and answering, as if only its own calls had been made, and they stay apart; an extractor constructed without eomis, or with a set nobody holds, keeps all apart and changes no other. train changes the caller's set of endings in place (only with extract_eomi, and only adding) and filters the caller's counter to the eojeols of at least the minimum count; every other extractor holding that set or counter sees exactly this and no other change. So two extractors given the same eomis teach each other endings, and training one with a counter takes words away from another trained with it. extract changes no other extractor and leaves the extractor with a set of its own.", "quantifier": "all numbers of extractors, all interleavings of calls, all inputs, thresholds and set orders", "why_tests_cant": "ranges over all histories of calls on several objects", "anchors": ["soynlp/predicator/_predicator.py: PredicatorExtractor.__init__", "soynlp/predicator/_predicator.py: PredicatorExtractor._train_with_eojeol_counter", "soynlp/predicator/_predicator.py: PredicatorExtractor._extract_eomi", "soynlp/predicator/_predicator.py: PredicatorExtractor._remove_wrong_eomis"]}
{"id": "C98", "title": "Files cut off while being written", "statement": "If the process dies while `EojeolCounter.save`, `LRGraph.save` or the vectorizer's `save` is writing, loading whatever beginning of the text is left reads back the entries written completely, and nothing else except for the one entry after them. For the counter that entry is not read, raises ValueError, or is read with a count that has lost its last digits. For the graph the same, or a right part that begins with a number is taken for the count of its left part alone; an empty rest raises IndexError; when it raises, the current graph stays. The vocabulary always loads: the cut-off term becomes a term of its own, and if it equals an earlier term that term's index changes.", "quantifier": "all saved counters, graphs and vocabularies, all crash points (beginnings of the written text)", "why_tests_cant": "every point of every file", "anchors": ["soynlp/utils/utils.py:EojeolCounter.save", "soynlp/utils/utils.py:EojeolCounter.load", "soynlp/utils/utils.py:LRGraph.save", "soynlp/utils/utils.py:LRGraph.load", "soynlp/vectorizer/_vectorizer.py:BaseVectorizer.save", "soynlp/vectorizer/_vectorizer.py:BaseVectorizer.load"]}
{"id": "C99", "title": "A corpus that fails while it is being read", "statement": "When the corpus raises while a trainer reads it, the exception reaches the caller. The three noun extractors (on the first reading), the vectorizer and the predicator extractor are then exactly what they were before the call, and no EojeolCounter exists. LRNounExtractor reads the corpus twice: if the second reading fails, predict and is_noun answer as before, but extract drops words by the cohesion scores of the new corpus; a corpus that can be read only once trains without complaint and yields no nouns. WordExtractor keeps what it has read, unpruned: training with the unread sentences and cumulate=True gives exactly the tables of one undisturbed training (pruning off, or the number of sentences read a multiple of num_for_pruning). Bigram loses its former counts, reports all pairs read whatever min_frequency, and with 'pmi' or 'mikolov' raises once a new word is among them. If learning raises in the predicator extractor, its eojeols are new and its lemmatizer is old. A corpus of length 0 is refused with ValueError and nothing changes.", "quantifier": "all corpora (what each reading gives and where it fails), parameters and earlier states", "why_tests_cant": "The failure can come after any sentence of any corpus and on any earlier state.", "anchors": ["soynlp/word/_word.py: WordExtractor.train", "soynlp/word/_phrase.py: Bigram.train", "soynlp/noun/_noun_ver1.py: LRNounExtractor.train, _scan_vocabulary, _build_lrgraph, extract", "soynlp/noun/_noun_ver2.py: LRNounExtractor_v2.train", "soynlp/noun/_noun_news.py: NewsNounExtractor.train", "soynlp/predicator/_predicator.py: PredicatorExtractor.train", "soynlp/vectorizer/_vectorizer.py: BaseVectorizer.fit", "soynlp/utils/utils.py: EojeolCounter, check_corpus"]}
{"id": "C100", "title": "A noun extraction that raises half way (LRNounExtractor_v2.extract)", "statement": "When LRNounExtractor_v2.extract raises, the stored nouns and the number of eojeols are as before the call; so are the features unless extract_pos_feature is set, and decompose_compound and the components unless extract_compound is set. Without a graph it raises AttributeError. On a trained graph that was frozen (lrgraph.freeze()), extract with compounds always raises AttributeError; by then decompose_compound already uses the new predictions and the graph has lost, for good (reset_lrgraph does not restore it), exactly the eojeols some accepted word is split off. Without compounds it returns the post-processed accepted words (or AttributeError from post-processing, storing nothing), but the same eojeols are gone and the coverage is reported as 0. An extractor trained again on a corpus with no eojeol raises ZeroDivisionError while reporting and keeps the nouns of the earlier extraction; with verbose=False it returns and stores no noun.", "quantifier": "all extractor states, counters, features, parameters, thresholds and enumeration orders", "why_tests_cant": "What is left depends on the whole graph and on where the call raises.", "anchors": ["soynlp/noun/_noun_ver2.py: LRNounExtractor_v2.extract, extract_compounds, extract_domain_pos_features, _check_covered_eojeols", "soynlp/utils/utils.py: LRGraph.freeze, reset_lrgraph"]}
{"id": "C101", "title": "Calling a tokenizer object; flatten, remove_r and debug", "statement": "Calling a RegexTokenizer, LTokenizer, MaxScoreTokenizer, NounMatchTokenizer or NounLMatchTokenizer object is its tokenize method with the same options. RegexTokenizer's debug option does not change the result. Without flatten, RegexTokenizer returns one list per whitespace-separated eojeol, of non-empty tokens that spell it; MaxScoreTokenizer one list of scored tokens that cover it from beginning to end without gap or overlap; LTokenizer one pair, its best cut; NounMatchTokenizer one list of its nouns, possibly empty. With flatten these are joined (LTokenizer and NounMatchTokenizer without empty strings). LTokenizer with remove_r returns the left parts only, whatever flatten says. MaxLRScoreTokenizer called as an object has debug switched on, so it does not return (word, tag) pairs but raw lists [l, r, p0, p1, p2, ...], each a candidate with its true offsets and scores or a piece with score 0; their non-empty words are, in order, the tokens of tokenize, and it raises exactly when tokenize does. Violation: the offsets of the pieces between candidates are not their offsets; without a left dictionary every entry is reported at 0.", "quantifier": "all sentences, dictionaries, default scores, tolerances, maximal lengths of at least 2 and option values", "why_tests_cant": "The agreement must hold for every sentence, dictionary and combination of options.", "anchors": ["soynlp/tokenizer/_tokenizer.py: RegexTokenizer.__call__, tokenize; LTokenizer.__call__, tokenize; MaxScoreTokenizer.__call__, tokenize; MaxLRScoreTokenizer.__call__, tokenize, _tokenize", "soynlp/tokenizer/_noun_tokenizer.py: NounMatchTokenizer.__call__, NounLMatchTokenizer.__call__"]}
{"id": "C102", "title": "The order of the sentences and of the elements of sets does not matter (and where it does)", "statement": "Given the same sentences in another order, and sets enumerated in another order (another hash seed): LRNounExtractor.train_extract returns the same nouns with the same scores, frequencies and shares, or the same error. LRNounExtractor_v2 with the default post-processing, trained without filtering on the way, finds the same nouns with the same numbers, compounds included, or raises the same error. WordExtractor, trained without pruning, gives every word the same frequencies, cohesion, branching entropy and accessor variety, and extract returns the same words with the same scores. Bigram without filtering on the way returns the same bigrams with the same frequency, pmi or mikolov scores. PredicatorExtractor.train_extract succeeds or raises alike, learns the same endings and stems, gives up the same endings and reports the same coverage. BaseVectorizer.fit finds the same terms, with the same document frequency at every index; if no two terms have the same document frequency the indices are the same. Violations: terms with equal document frequency get their indices from the order of the documents; with filtering on the way EojeolCounter and Bigram keep a word whose occurrences are near each other and lose it if they are apart; NewsNounExtractor accepts a compound of four words only if the pair it contains was met before it; PredicatorExtractor reports a word or not depending on which word was met before it.", "quantifier": "all corpora and permutations of their sentences, all enumeration orders of sets, all parameters and thresholds (stem score threshold positive when stems are learnt)", "why_tests_cant": "A test compares two of the many orders of one corpus; set order changes with the hash seed of the process.", "anchors": ["soynlp/noun/_noun_ver1.py: LRNounExtractor.train_extract", "soynlp/noun/_noun_ver2.py: LRNounExtractor_v2.train_with_sentences, extract", "soynlp/word/_word.py: WordExtractor.train, word_scores, extract", "soynlp/word/_phrase.py: Bigram.train, extract", "soynlp/predicator/_predicator.py: PredicatorExtractor.train_extract", "soynlp/vectorizer/_vectorizer.py: BaseVectorizer.fit", "soynlp/noun/_noun_news.py: NewsNounExtractor.train_extract", "soynlp/utils/utils.py: EojeolCounter"]}
{"id": "C103", "title": "Raising a threshold", "statement": "EojeolCounter (no filtering on the way) with a higher min_count keeps exactly the eojeols that reach it, with the same counts; Bigram.extract with a higher threshold returns exactly the bigrams whose score reaches it, for each of the three scores; pmi with a higher min_pmi keeps exactly the entries that reach it; BaseVectorizer.fit with narrower ranges finds only terms of the wider ones; WordExtractor.extract with stricter thresholds finds only words of the looser extraction, with the same scores, if that one does not remove subwords. Where this fails the new words have one cause each: with remove_subwords on both sides, a word found only by the stricter extraction has an extension by one character that passes the looser thresholds and fails the stricter; in LRNounExtractor a word found only with the higher minimum_noun_score is a noun and a right part which reach the lower threshold but not both the higher; in LRNounExtractor_v2 a word found only with the higher min_noun_frequency is a word of two or more characters, not a noun of the stricter extraction, followed by a positive feature of two or more. Violations: each of these really adds words, and so does a higher min_noun_score in LRNounExtractor_v2.", "quantifier": "all corpora, parameters, pairs of ordered thresholds, enumeration orders of sets", "why_tests_cant": "Monotonicity relates the results for every pair of thresholds on every corpus.", "anchors": ["soynlp/utils/utils.py: EojeolCounter", "soynlp/word/_phrase.py: Bigram.extract", "soynlp/word/_pmi.py: pmi", "soynlp/vectorizer/_vectorizer.py: BaseVectorizer.fit", "soynlp/word/_word.py: WordExtractor.extract", "soynlp/noun/_noun_ver1.py: LRNounExtractor.train_extract", "soynlp/noun/_noun_ver2.py: LRNounExtractor_v2.extract"]}
{"id": "C104", "title": "What is left out of a call", "statement": "Every public call with optional arguments, made without them, is the same call with the documented values written out, for every state and input: for the L-R graph and the eojeol counter (10, 9, topk 10, min_count 1, max_length 15), the three noun extractors and their features, the predicator, eomi and stem extractors, the word and bigram extractors, the vectorizer, the context matrix, pmi, most_similar, the tokenizers, the lemmatizer, the news packages, the pattern trainer with its ranking, and the taggers' templates and weights.", "quantifier": "all states and inputs of each call", "why_tests_cant": "a test fixes the inputs on which a call with and a call without an argument are compared; most defaults only matter on some of them", "anchors": ["soynlp/utils/utils.py", "soynlp/noun/_noun_ver1.py", "soynlp/noun/_noun_ver2.py", "soynlp/predicator/_stem.py", "soynlp/word/_word.py", "soynlp/tokenizer/_tokenizer.py"]}
{"id": "C105", "title": "What is_trained tells", "statement": "After any history of calls of train and extract on a new LRNounExtractor_v2, including calls that raise, is_trained is true exactly if some call of train returned. EomiExtractor.is_trained is true exactly once extract has been called, even if every call raised (a call that raises leaves no endings and the graph as it was). Bigram.is_trained is false for a new object, after train true exactly if some pair of adjacent words is left after filtering, and after a training that the corpus interrupted true exactly if a pair had been counted.", "quantifier": "all histories of calls, parameters, inputs and interruptions", "why_tests_cant": "all histories, including those in which calls raise", "anchors": ["soynlp/noun/_noun_ver2.py:LRNounExtractor_v2.is_trained", "soynlp/predicator/_eomi.py:EomiExtractor.is_trained", "soynlp/word/_phrase.py:Bigram.is_trained"]}
{"id": "C106", "title": "Counting a corpus in parts", "statement": "For every corpus cut into two non-empty parts, when nothing is dropped (minimum count at most 1, no filtering or pruning on the way) the counts of the whole are the sums of the counts of the parts: EojeolCounter, WordExtractor (train on the first part, then cumulate the second, gives the left and right frequencies of training on the whole), Bigram, NewsNounExtractor frequencies and the pairs of an LRGraph built from sentences. With a higher minimum the whole never counts less than the parts together (EojeolCounter: at most 2*(min_count-1) more, and this is reached), so a corpus counted in parts loses words that a corpus counted at once keeps.", "quantifier": "all corpora, cuts, words and parameters without filtering on the way", "why_tests_cant": "all corpora and all ways of cutting them", "anchors": ["soynlp/utils/utils.py:EojeolCounter", "soynlp/word/_word.py:WordExtractor.train", "soynlp/word/_phrase.py:Bigram.train", "soynlp/noun/_noun_news.py:NewsNounExtractor.train", "soynlp/utils/utils.py:LRGraph"]}
{"id": "C107", "title": "Repeating the corpus", "statement": "Training on the corpus k times over, nothing dropped by a minimum count: WordExtractor multiplies all left and right frequencies by k and leaves every cohesion score as it is; branching entropy and accessor variety of every word are the same for any two repetition numbers of at least 2 (from once to twice they can change, because neighbours across a word boundary seen only once are dropped); NewsNounExtractor.predict reports k times the frequency and the same score and proportions; Bigram keeps the same pairs with k times the counts, and its PMI score grows by exactly 2 log k.", "quantifier": "all corpora, words, repetition numbers and parameters with a minimum count of at most 1", "why_tests_cant": "all corpora and repetition numbers; real-valued scores", "anchors": ["soynlp/word/_word.py:WordExtractor.word_scores", "soynlp/noun/_noun_news.py:NewsNounExtractor.predict", "soynlp/word/_phrase.py:Bigram.extract"]}
{"id": "C108", "title": "Several Dictionary objects in one program", "statement": "Dictionary(pos_dict) takes over the caller's dict. Objects built from the same dict give every word the same tags after any program (calls on any objects, raising or not, changes the caller makes to its own dicts and containers), as long as neither is loaded from a file; but each has its own max_length, so a word added through one is known to the other and still not found by an LRTemplateMatcher using it when it is longer (shown). On a dictionary in any state the matcher finds exactly the supported candidates whose two parts are at most as long as max_length. When words are added as strings and handed-over dicts and containers are left alone, objects on different dicts never influence each other, and without load every known word is at most as long as the max_length of some object on the same dict.", "quantifier": "all programs over any number of Dictionary objects, dicts and containers; all words, tags and tokens", "why_tests_cant": "all interleavings of calls on objects that share mutable state", "anchors": ["soynlp/postagger/_dictionary.py:Dictionary", "soynlp/postagger/_template.py:LRTemplateMatcher.generate"]}
{"id": "C109", "title": "SimpleTagger.tag with debug=True", "statement": "With LRTemplateMatcher and LREvaluator, tag(debug=True) raises nothing and returns the tags of debug=False together with, for every word of the sentence, all generated candidates with their scores, ordered by begin and then by score. With EojeolTemplateMatcher it raises AttributeError for every sentence that has a word (its candidates are lists), for any evaluator and postprocessor, and returns two empty lists for a blank sentence.", "quantifier": "all sentences, dictionaries, scoring functions and postprocessors", "why_tests_cant": "all sentences and dictionaries", "anchors": ["soynlp/postagger/_tagger.py:SimpleTagger.tag"]}
{"id": "C110", "title": "Where a text is cut", "statement": "Tokenising, tagging or normalising two texts joined by a whitespace character gives what the first gives followed by what the second gives (tokenizer.normalize: the two results joined by one blank), for RegexTokenizer, LTokenizer (also with remove_r), MaxScoreTokenizer, MaxLRScoreTokenizer, NounLMatchTokenizer, NounMatchTokenizer, SimpleTagger with any generator, evaluator and postprocessor, and tokenizer.normalize; if one of them raises on a text, the joined text raises the exception of the first text that raises. The counts of EojeolCounter, LRGraph, NewsNounExtractor and the left and right frequencies of WordExtractor do not change when two sentences of the corpus are written on one line. Bigram then counts exactly one pair more, the one across the cut.", "quantifier": "all texts, whitespace characters, dictionaries, options, surrounding corpora", "why_tests_cant": "ranges over all pairs of texts and all corpora around them", "anchors": ["soynlp/tokenizer/_tokenizer.py:RegexTokenizer.tokenize", "soynlp/tokenizer/_tokenizer.py:LTokenizer.tokenize", "soynlp/tokenizer/_tokenizer.py:MaxScoreTokenizer.tokenize", "soynlp/tokenizer/_tokenizer.py:MaxLRScoreTokenizer.tokenize", "soynlp/tokenizer/_noun_tokenizer.py", "soynlp/tokenizer/_normalizer.py:normalize", "soynlp/postagger/_tagger.py:SimpleTagger.tag", "soynlp/utils/utils.py:EojeolCounter", "soynlp/word/_word.py:WordExtractor.train", "soynlp/word/_phrase.py:Bigram"]}
{"id": "C111", "title": "Only the words that occur in the text matter", "statement": "Two dictionaries that agree on the pieces (substrings) of a sentence give the same result on it, or the same exception, however they differ elsewhere: score tables of LTokenizer, MaxScoreTokenizer and NounMatchTokenizer, noun sets of NounLMatchTokenizer, the two dictionaries and preferences of MaxLRScoreTokenizer (with debug or without), and the candidates EojeolTemplateMatcher and LRTemplateMatcher make from a Dictionary - also when the longest words of the two dictionaries, up to which some of them look, differ. In particular giving a score to a word that does not occur in the sentence changes nothing, however good the score and however long the word.", "quantifier": "all sentences, all pairs of dictionaries agreeing on them, all options; for LRTemplateMatcher all Dictionary histories", "why_tests_cant": "ranges over all pairs of dictionaries that agree on a text", "anchors": ["soynlp/tokenizer/_tokenizer.py:LTokenizer", "soynlp/tokenizer/_tokenizer.py:MaxScoreTokenizer", "soynlp/tokenizer/_tokenizer.py:MaxLRScoreTokenizer", "soynlp/tokenizer/_noun_tokenizer.py", "soynlp/postagger/_template.py:EojeolTemplateMatcher.generate", "soynlp/postagger/_template.py:LRTemplateMatcher.generate"]}
{"id": "C112", "title": "Tokenizing the tokens again", "statement": "Joining a tokenizer's output with blanks and giving it to the same tokenizer returns the same tokens: RegexTokenizer (digits that are no whitespace, dots, Korean characters or Latin letters), MaxScoreTokenizer with max_length of at least 2 when no eojeol has more than 203 characters, NounLMatchTokenizer with and without compounds (and the compounds split into the nouns that are returned without compounds), and LTokenizer with remove_r=True, whatever the tolerance (as pairs the left parts then have empty right parts). It does not hold for the flattened output of LTokenizer (a right part of three or more characters is read as an eojeol and may be cut), for NounMatchTokenizer (nouns of two characters are lost, C52), and for MaxScoreTokenizer beyond 203 characters (the uncut tail is cut the second time).", "quantifier": "all sentences, all score tables, noun sets, default scores, tolerances and maximum lengths", "why_tests_cant": "Idempotence has to hold for every sentence and every table: whether the winner of a competition in its eojeol also wins alone, with no competitor left but its own parts, depends on all scores.", "anchors": ["soynlp/tokenizer/_tokenizer.py: RegexTokenizer, LTokenizer, MaxScoreTokenizer", "soynlp/tokenizer/_noun_tokenizer.py: NounLMatchTokenizer, NounMatchTokenizer"]}
{"id": "C113", "title": "Only the order of the scores matters", "statement": "Applying a strictly increasing function f to all scores of the table (and to the default score) changes no token of MaxScoreTokenizer, and its spans change only in that each carries f of its old score. NounMatchTokenizer returns the same nouns, with and without compounds, if f maps 0 to 0. LTokenizer with tolerance 0 or less returns the same pairs; with any tolerance it does so when scores and default score are transformed by x -> k*x+c with k > 0 and the tolerance is multiplied by k. With a fixed positive tolerance it does not: doubling the scores can move a cut. The taggers' choice of a candidate depends only on the order of the evaluations, so multiplying all weights (and preferences) of the package's evaluators by a positive number changes no choice.", "quantifier": "all score tables, default scores, tolerances, maximum lengths, sentences, strictly increasing functions, positive factors, evaluation functions and candidate lists", "why_tests_cant": "It ranges over all monotone rescalings of all tables; tests compare a few rescalings of one table.", "anchors": ["soynlp/tokenizer/_tokenizer.py: LTokenizer, MaxScoreTokenizer", "soynlp/tokenizer/_noun_tokenizer.py: NounMatchTokenizer", "soynlp/postagger/_evaluator.py: SimpleEojeolEvaluator, LREvaluator"]}
{"id": "C114", "title": "The character functions accept exactly one-character strings", "statement": "character_is_korean, _complete_korean, _jaum, _moum, _number, _english, _punctuation and to_base, called with a string of one character, answer by the Unicode class (or the listed ASCII characters) of that character; called with any other object they raise TypeError, as does decompose - also for integers, which the type test lets through. (decompose of a one-character string answers as in C02.) compose of three objects succeeds iff they are the one-character strings of an initial consonant, a vowel and a final (or a blank) and gives that syllable; otherwise it raises ValueError. If decompose returns a triple the argument was a Korean character; the triple composes back to it if it is a syllable and is rejected with ValueError if it is a single consonant or vowel. Lemmatizer.candidates raises AttributeError for every word but the empty one (it looks up a method that does not exist), for which it returns the empty set.", "quantifier": "all Python objects as arguments (strings of every length, integers, others), all triples of them, all lemmatizers and words", "why_tests_cant": "The domain is all objects and all triples of strings; that no other argument is accepted cannot be sampled.", "anchors": ["soynlp/hangle/_hangle.py: to_base, character_is_korean, character_is_complete_korean, character_is_jaum, character_is_moum, character_is_number, character_is_english, character_is_punctuation, compose, decompose", "soynlp/lemmatizer/_lemmatizer.py: Lemmatizer.candidates"]}
{"id": "C115", "title": "Raising scores and adding words", "statement": "If scores are raised or words are added (no word scores less than before), MaxScoreTokenizer returns for a sentence the same tokens, with the same offsets and scores, unless one of the rescored words is among the new tokens with its new score; it raises on the same eojeols. Read backwards: lowering or removing words that do not come out changes nothing. The same holds for the pairs of LTokenizer with a tolerance of 0 or less (a rescored left part), for NounLMatchTokenizer when nouns are added, and for NounMatchTokenizer when the raised scores are positive, with and without compounds, judged by the nouns returned without compounds. With a positive tolerance it fails for LTokenizer: raising a word that does not come out can move a cut. An added noun that does come out can cost NounLMatchTokenizer other nouns. For the taggers: adding words to the dictionary (max_length not smaller) keeps every candidate of the left-right matcher, and every one-entry candidate with a tag of the eojeol matcher; but its compound candidates can vanish: adding a noun can turn a tagged compound into an unknown word.", "quantifier": "all pairs of score tables (noun sets, dictionaries) of which one is above the other, all default scores, maximum lengths, sentences", "why_tests_cant": "It compares all pairs of tables on all sentences; a regression only shows for particular overlaps of words and ties of scores.", "anchors": ["soynlp/tokenizer/_tokenizer.py: MaxScoreTokenizer, LTokenizer", "soynlp/tokenizer/_noun_tokenizer.py: NounLMatchTokenizer, NounMatchTokenizer", "soynlp/postagger/_template.py: LRTemplateMatcher, EojeolTemplateMatcher"]}
{"id": "C116", "title": "Renaming the characters renames the results and changes nothing else", "statement": "Take any one-to-one renaming of characters that keeps whitespace whitespace, everything else non-whitespace, and the blank itself. Then, for every corpus, score table and sentence: EojeolCounter built from the renamed sentences is the renamed counter (with a preprocess that commutes with the renaming); WordExtractor.train from renamed tables on renamed sentences leaves the renamed tables (or raises the same error), with or without pruning and cumulation; the frequency, cohesion, accessor variety and branching entropy of a renamed word are those of the word; word_scores() is the renamed table (for the correspondingly renamed enumeration of the words) and extract with the same thresholds returns the renamed words with the same scores; LTokenizer, MaxScoreTokenizer, NounMatchTokenizer with renamed score tables and NounLMatchTokenizer with renamed nouns cut the renamed sentence at the same places with the same scores; BaseVectorizer fitted on renamed documents has the renamed vocabulary in the same order and gives every document the same numbers (tokenizer commuting with the renaming); Bigram counts the renamed bigrams; LRGraph built from renamed sentences, a renamed graph or a renamed counter is the renamed graph and stays so through every history of add/remove/reset/freeze calls (each raising the same error or none), with get_r and get_l listing the renamed rows in the same order; MaxLRScoreTokenizer with renamed dictionaries gives the renamed tokens with the same tags or raises the same error; levenshtein (with the renamed cost table) and cosine_distance are unchanged. jamo_levenshtein, which looks inside syllables, is changed by some renamings.", "quantifier": "all one-to-one character renamings respecting whitespace, all corpora, tables, words, sentences, parameters", "why_tests_cant": "a relation between two runs over all renamings and all inputs; a special case for some script, punctuation or code point range would be seen only on the characters concerned", "anchors": ["soynlp/utils/utils.py: EojeolCounter", "soynlp/word/_word.py: WordExtractor", "soynlp/tokenizer/_tokenizer.py: LTokenizer, MaxScoreTokenizer", "soynlp/tokenizer/_noun_tokenizer.py: NounLMatchTokenizer, NounMatchTokenizer", "soynlp/vectorizer/_vectorizer.py: BaseVectorizer", "soynlp/word/_phrase.py: Bigram", "soynlp/hangle/_distance.py: levenshtein, cosine_distance, jamo_levenshtein"]}
{"id": "C117", "title": "The statistics-based candidate scorer ranks by a linear score, stably, and fails only outside the domain of log", "statement": "LREvaluator(profile).evaluate(candidates, preference) of soynlp.postagger._lrtagger returns every candidate exactly once together with its score, best score first, candidates of equal score in the order they were given. The score is the weighted sum of cohesion, drop rate, log(count of L + 1), P(R|L), log(count of L-R + 1), whether both parts are tagged, whether R is one syllable and log(length), where a feature the profile does not name weighs 0, plus the preferences of the L and the R word under their tags (0 when the preference table has no such tag or word). A missing or empty profile means the documented default weights. The call fails exactly when some candidate has a negative count or a length that is not positive, always with ValueError, and then no candidate is returned. A preference for tags no candidate carries changes nothing.", "quantifier": "every profile, every list of candidates with any tags, statistics and counts, every preference table", "why_tests_cant": "the ranking depends on real-valued statistics, on ties, on which profile fields and tags happen to be present and on the whole candidate list; tests sample a handful", "anchors": ["soynlp/postagger/_lrtagger.py: LREvaluator.__init__, LREvaluator.evaluate, LREvaluator.make_scoretable, LREvaluator._evaluate, default_profile"]}
{"id": "C118", "title": "The statistics of a word depend only on the sentences that contain it", "statement": "After WordExtractor.train without intermediate pruning (from a new extractor, or cumulating onto an old one), the left and right frequency, the accessor variety and the branching entropy of a word w are the same for any two corpora that have the same sentences, in the same order, among those in which some token begins or ends with w; the cohesion of w is the same for any two corpora that agree on the sentences in which some token begins with its first character or ends with its last one. Other sentences can be added, changed, moved or removed freely. With num_for_pruning set this fails: a sentence without w moves the point at which rare strings are thrown away.  The same holds, for the sentences in any order, for the count of an eojeol in EojeolCounter (sentences containing it), for what an L-R graph built from sentences lists for a left part (sentences with a word beginning with it) and for the pairs reported by Bigram.extract by frequency (sentences in which the two words stand side by side). It does not hold for the PMI of a pair, which grows with the number of unrelated pairs, nor for the noun test of LRNounExtractor, where unrelated sentences decide which right parts count as features.", "quantifier": "every word, every two corpora that agree on the sentences mentioning the word, every parameters, every previous state, cumulate on or off", "why_tests_cant": "the two corpora may differ in arbitrarily many unrelated sentences at arbitrary places", "anchors": ["soynlp/word/_word.py: WordExtractor.train, WordExtractor.frequency, WordExtractor.cohesion_score, WordExtractor.accessor_variety, WordExtractor.branching_entropy", "soynlp/utils/utils.py: EojeolCounter", "soynlp/utils/utils.py: LRGraph", "soynlp/word/_phrase.py: Bigram", "soynlp/noun/_noun_ver1.py: LRNounExtractor.is_noun"]}
{"id": "C119", "title": "Reading everything backwards", "statement": "Reversing both strings changes none of levenshtein (with any cost table), jamo_levenshtein, cosine_distance and jaccard_distance. normalize (with any flags and repeat limit), repeat_normalize, only_hangle, only_hangle_number and only_text of a reversed text are the reversed result. EojeolCounter on reversed sentences counts the reversed eojeols; Bigram (by frequency) reports the reversed pairs, swapped; the right frequency of a reversed word in the reversed corpus is the left frequency of the word for WordExtractor, provided no token is the word itself and the length limits admit it. It fails for emoticon_normalize, for words that are whole tokens (counted as left parts, never as right parts) and for MaxScoreTokenizer (ties go to the left).", "quantifier": "every pair of strings and cost table, every text and flags, every corpus and word", "why_tests_cant": "a symmetry between two runs on inputs of any length; tests would sample a few palindromes at best", "anchors": ["soynlp/hangle/_distance.py: levenshtein, jamo_levenshtein, cosine_distance, jaccard_distance", "soynlp/normalizer/_normalizer.py: normalize, repeat_normalize, only_hangle, only_hangle_number, only_text, emoticon_normalize", "soynlp/utils/utils.py: EojeolCounter", "soynlp/word/_phrase.py: Bigram", "soynlp/word/_word.py: WordExtractor.train, WordExtractor.frequency", "soynlp/tokenizer/_tokenizer.py: MaxScoreTokenizer"]}
{"id": "C120", "title": "A save and a load in the middle of a history", "statement": "Take an EojeolCounter just counted from a corpus and any sequence of remove_covered_eojeols calls with saves in between, each time going on with what another EojeolCounter loaded from the saved file (whatever it held before). No save or load raises; every count and the number of uncovered occurrences are as in the same sequence without the saves. The coverage is not: it is 1 minus what is left now over what was left at the last save (it starts again from 0), and if nothing was left at a save, every later removal raises ZeroDivisionError. Take an LRGraph holding something and any sequence of add_lr_pair, add_eojeol, remove_lr_pair, remove_eojeol, reset_lrgraph and saves, each time going on with what another LRGraph loaded: every call has the same outcome, and get_r and get_l list the same neighbours with the same counts, as if each save and load had been a reset_lrgraph; so additions and removals made before a save are lost by it.", "quantifier": "all counters built from a corpus, all graphs with writable keys, all histories of calls, any number of saves and loads at any points, any previous contents of the loading objects", "why_tests_cant": "a test saves and loads once, right after training; the claim is about every point of every history", "anchors": ["soynlp/utils/utils.py:EojeolCounter.save", "soynlp/utils/utils.py:EojeolCounter.load", "soynlp/utils/utils.py:EojeolCounter.remove_covered_eojeols", "soynlp/utils/utils.py:LRGraph.save", "soynlp/utils/utils.py:LRGraph.load", "soynlp/utils/utils.py:LRGraph.reset_lrgraph"]}
{"id": "C121", "title": "How large the results can get", "statement": "RegexTokenizer, MaxScoreTokenizer and LTokenizer (flattened) return at most as many tokens as the text has non-whitespace characters, and the tokens' lengths add up to exactly that number. only_hangle, only_hangle_number, only_text and normalize without repeat removal never lengthen a text; with repeat removal to n characters normalize and repeat_normalize give at most max(3, n)/3 times the length and hangle.normalize at most max(4, n)/4 times, so an n above 3 (4) can lengthen the text. EojeolCounter keeps at most (number of eojeols of the corpus) / max(1, min_count) different eojeols. WordExtractor keeps at most the sum over the tokens of min(length, max_left_length + 1) beginnings, and of min(length - 1, max_right_length) ends, divided by max(1, min_frequency). Bigram reports by frequency at most (number of neighbouring token pairs) / max(1, min_frequency, threshold) pairs. The counters without intermediate pruning.", "quantifier": "all texts, corpora, score tables, flags, limits and thresholds; any list of different words with a positive count", "why_tests_cant": "a bound on memory and output size must hold for every corpus; a test shows the size for one", "anchors": ["soynlp/tokenizer/_tokenizer.py:RegexTokenizer", "soynlp/tokenizer/_tokenizer.py:MaxScoreTokenizer", "soynlp/normalizer/_normalizer.py:normalize", "soynlp/hangle/_hangle.py:normalize", "soynlp/utils/utils.py:EojeolCounter", "soynlp/word/_word.py:WordExtractor.train"]}
{"id": "C122", "title": "A tokenizer and the dict it was given", "statement": "A program makes score dicts, changes their contents in place at any time, and makes LTokenizer, MaxScoreTokenizer, NounMatchTokenizer and NounLMatchTokenizer objects from them, or (the first three) without a dict. An object made with a dict answers every later call as if it had just been made with the contents the dict has now, so changes of the dict show through, and changes of other dicts and the making of other tokenizers never do. The exception: an LTokenizer, MaxScoreTokenizer or NounMatchTokenizer made while the dict was empty answers as with no scores for ever, even after the dict has been filled; NounLMatchTokenizer follows an initially empty dict too. Objects made without a dict answer as with no scores and share nothing.  A MaxLRScoreTokenizer made from dicts (without graph and builder) is half a copy and half a view: Dl and Dr are copied, so it answers as the object constructed from their contents at the time, but the preferences counted are the ones the preference dicts hold now (none for ever if such a dict was empty or missing then), while the words of a preference dict become known only at construction.", "quantifier": "all programs (sequences of making dicts, changing dicts in any way, making tokenizers), all points in them, all sentences and arguments", "why_tests_cant": "aliasing shows only in the interleaving of the caller's changes with the calls; tests build a dict once and never change it", "anchors": ["soynlp/tokenizer/_tokenizer.py:LTokenizer.__init__", "soynlp/tokenizer/_tokenizer.py:MaxScoreTokenizer.__init__", "soynlp/tokenizer/_noun_tokenizer.py:NounLMatchTokenizer.__init__", "soynlp/tokenizer/_noun_tokenizer.py:NounMatchTokenizer.__init__", "soynlp/tokenizer/_tokenizer.py:MaxLRScoreTokenizer.__init__"]}
{"id": "C123", "title": "A line corpus whose file changes between calls", "statement": "A DoublespaceLineCorpus opens its file anew at each iteration and each count. Under any history of rewritings and removals of the file, iterations and len() calls, for a corpus constructed without limits: until a len() has found a document, each iteration yields every document (sentence) of the file as it then is; the first len() that finds a document after the header is remembered for good: every later len() answers that number whatever the file holds, and every later iteration yields only that many first documents (in sentence mode: sentences, or all when 0 were counted) of the file as it then is, so what was appended to the file is never seen. A len() on a file shorter than the header answers 0, one on a file with only the header answers -1, and neither is remembered. While the file is missing, iteration raises UnboundLocalError before yielding anything and len() answers the remembered number, or 0 if there is none; constructing on a missing file raises ValueError. A corpus constructed with a positive num_doc or num_sent on a file with a document remembers, from construction, the numbers the limits allow (C29).  A trainer that checks its corpus asks for its length, so training is such a measurement: handing the same corpus to a trainer again after its file changed trains with the new file cut to the number of documents (sentences) the old one had, and even an empty file is then not refused.", "quantifier": "every sequence of rewritings and removals of the file, iterations and len() calls, every file content, header length, mode and limits", "why_tests_cant": "the answer depends on the whole order of edits and calls; a test fixes one order and one file", "anchors": ["soynlp/utils/utils.py: DoublespaceLineCorpus.__init__, _check_length, __iter__, __len__"]}
