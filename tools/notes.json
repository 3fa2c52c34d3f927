{
 "C06": [
  "proved",
  "The naive claim (cost honoured in both orders) is refuted by C06_violated; both cases are characterised exactly for all strings and tables."
 ],
 "C11": [
  "proved",
  "C11_rewritten gives the exact and unique rewriting for all texts (Spec/Emoticon.lean); C11_violated refutes the naive claim."
 ],
 "C51": [
  "proved",
  "The naive claim is refuted by C51_english_words_whole_violated; C51_latin_tokens and C51_word give the exact rule."
 ],
 "C52": [
  "proved",
  "The naive claim is refuted for short eojeols for all tables; C52_whole_eojeol is the exact condition."
 ],
 "C20": [
  "proved",
  "The naive claim is refuted by C20_violated and C20_lone_R_raises; the statement given is proved for all configurations, and C62 characterises the result exactly."
 ],
 "C39": [
  "proved",
  "The naive losslessness claim is refuted by C39_not_lossless; C39_lossless_iff says exactly when it holds."
 ],
 "C82": [
  "proved",
  "Packaged dictionaries are parameters; state after a raise not modelled. Exact frequencies need min_eojeol_frequency <= 1 or at most 500000 sentences (C21 gives bounds otherwise)."
 ],
 "C93": [
  "proved",
  "extract with words supplied by the caller is C56; the learning stages one by one are C58-C61. The state left behind by a call that raises is not modelled."
 ],
 "C95": [
  "proved",
  "files as decoded text in an existing writable directory; the printing of numbers is a parameter"
 ],
 "C98": [
  "proved",
  ""
 ],
 "C99": [
  "proved",
  "The exception falls between two sentences (raised by the corpus' iterator). A Bigram object whose first training fails has no _unigram attribute; the theorem only says that scoring raises."
 ],
 "C100": [
  "proved",
  "For the frozen cases extract_pos_feature=False and training by an eojeol counter (training on sentences goes through one). I/O errors of log files are not considered."
 ],
 "C101": [
  "proved",
  "Includes the finding C101_positions_violation: piece offsets reported with debug are wrong."
 ],
 "C102": [
  "proved",
  ""
 ],
 "C103": [
  "proved",
  ""
 ],
 "C110": [
  "proved",
  "EojeolCounter, WordExtractor and Bigram with no filtering on the way, as in C106."
 ],
 "C111": [
  "proved",
  "MaxLRScoreTokenizer: the dictionaries as the object holds them (preferences already added)."
 ],
 "C112": [
  "proved",
  "Three violations recorded as theorems. MaxLRScoreTokenizer is not treated: it raises on many inputs (C20)."
 ],
 "C117": [
  "proved",
  "Scores are real numbers; the preferences and tags are compared as strings."
 ],
 "C118": [
  "proved",
  "C118_pruning is the counterexample with num_for_pruning = 2."
 ],
 "C119": [
  "proved",
  "Three counterexamples: C119_emoticon_violated, C119_words_violated, C119_maxscore_violated."
 ],
 "C123": [
  "proved",
  "Full history theorem; each change of the file happens between calls, not in the middle of an iteration."
 ]
}