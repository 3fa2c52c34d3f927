import Verif.Model.Bigram
import Verif.Model.LRHeap
import Verif.Model.EojeolPattern
import Verif.Model.Eomi
import Verif.Model.Stem
import Verif.Model.Hits
import Verif.Model.NewsTrain
import Verif.Model.NewsNoun
import Verif.Model.MaxLR
import Mathlib.Tactic.NormNum
import Verif.Model.NounV1
import Verif.Model.NounV2
import Verif.Model.PredHeap
import Verif.Model.PredTrain
import Verif.Model.Pmi
import Verif.Model.TokNormalizer
import Verif.Model.WordExtractor
import Verif.Model.Conjugation
import Verif.Model.NounPost
import Verif.Model.Vectorizer
import Verif.Model.WordContext
import Verif.Model.Calls
import Verif.Model.Postagger
import Verif.Model.Utils
/-!
# C104 What is left out of a call

Each public call with optional arguments, called with fewer of them, is the call with the values the documentation names written out.  Each statement is over every state
and every input; its proof is by unfolding, since the defaults are part of the definitions: what the statements add is that the numbers stand here a second time,
in the order and the notation of the Python signatures, so that the model cannot silently have other ones.
-/
open Py

namespace Props

/-- C104: `LRGraph(l_max_length=10, r_max_length=9)`, `get_r(l, topk=10)`, `get_l(r, topk=10)`, `to_EojeolCounter(reset_lrgraph=False)`,
`EojeolCounter.to_lrgraph(l_max_length=10, r_max_length=9)`, `EojeolCounter.get_uncovered_eojeols(min_count=0)` (soynlp/utils/utils.py) -/
theorem C104_graph (s : LR.State) (c : EC.State) (w : LRHeap.World) (i : Nat) (src : LRHeap.Source) (g : Nested Str) (sents : List Str) (x : Str) :
    LR.construct g sents = LR.construct g sents 10 9 ∧ LR.construct = LR.construct [] [] 10 9 ∧
    LRHeap.new w src = LRHeap.new w src 10 9 ∧
    LR.getR s x = LR.getR s x 10 ∧ LR.getL s x = LR.getL s x 10 ∧ LRHeap.getR w i x = LRHeap.getR w i x 10 ∧ LRHeap.getL w i x = LRHeap.getL w i x 10 ∧
    LR.toEojeolCounter s = LR.toEojeolCounter s false ∧ LR.toLrgraph c = LR.toLrgraph c 10 9 ∧ EC.getUncovered c = EC.getUncovered c 0 :=
  ⟨rfl, rfl, rfl, rfl, rfl, rfl, rfl, rfl, rfl, rfl⟩

/-- C104: `EojeolCounter(min_count=1, max_length=15, filtering_checkpoint=0)` (soynlp/utils/utils.py:193-194); without `preprocess` the sentences are counted as they are -/
theorem C104_counter : ({} : EC.Params) = ⟨1, 15, 0, id⟩ := rfl

/-- C104: the noun extractors: `LRNounExtractor(10, 7, min_num_of_features=1, ensure_normalized=False)`, its `train(sents, 5)`, `predict(word, 0.5)`, `is_noun(word, 0.5)`,
`extract(0.5)`; `LRNounExtractor_v2(10, 9, …)`, `_train_with_sentences(sents, 1)`, `predict(word, 0.3)` (soynlp/noun/_noun_ver1.py, _noun_ver2.py) -/
theorem C104_nouns (p : V1.Params) (s : V1.State) (sents ord : List Str) (word : Str) (q : V2.Params) (t : V2.State) (F : V2.Features) (g : LR.State)
    (scores : Dict Str (Rat × Rat)) (cands : List Str) :
    V1.train p s sents = V1.train p s sents 5 ∧ V1.predict p s word = V1.predict p s word (.num (1/2)) none ∧ V1.isNoun p s word = V1.isNoun p s word (1/2) ∧
    V1.extract p s ord = V1.extract p s ord (1/2) [] ∧
    ({} : V1.Params).maxLeft = 10 ∧ ({} : V1.Params).maxRight = 7 ∧ ({} : V1.Params).minNumOfFeatures = 1 ∧ ({} : V1.Params).ensureNormalized = false ∧
    V2.trainWithSentences q t sents = V2.trainWithSentences q t sents 1 ∧ V2.predict q t word = V2.predict q t word (3/10) ∧
    V2.predictIn q F g word = V2.predictIn q F g word (3/10) ∧ V2.batchPredicting q F g cands = V2.batchPredicting q F g cands (3/10) ∧
    V2.extractCompounds F g scores = V2.extractCompounds F g scores (3/10) ∧
    ({} : V2.Params) = ⟨10, 9, true, 1, 30, 500000, true, false, false, ["detaching_features".toList, "ignore_features".toList, "ignore_NJ".toList]⟩ ∧
    ({} : Josa.Params) = ⟨3/10, 100, 3/10, 1000, 4, 1/2, 3/2⟩ :=
  ⟨rfl, rfl, rfl, rfl, rfl, rfl, rfl, rfl, rfl, rfl, rfl, rfl, rfl, rfl, rfl⟩

/-- C104: `extract_domain_pos_features(noun_candidates=None, ignore_features=None, append_extracted_features=True, min_noun_score=0.3, min_noun_frequency=100, min_pos_score=0.3,
min_pos_feature_frequency=1000, min_num_of_unique_lastchar=4, min_entropy_of_lastchar=0.5, min_noun_entropy=1.5)` and `check_N_is_NJ(nouns, extractor, min_num_of_josa=5)`
(soynlp/noun/_noun_ver2.py:204-209, _noun_postprocessing.py:72) -/
theorem C104_features (q : V2.Params) (entLt : List Int → Rat → Bool) (enum : Nat → List Str → List Str) (F : V2.Features) (g : LR.State)
    (nouns : Dict Str (Rat × Rat)) (origin : Option (Nested Str)) :
    V2.extractDomainPosFeatures q entLt enum F g = V2.extractDomainPosFeatures q entLt enum F g [] [] true ⟨3/10, 100, 3/10, 1000, 4, 1/2, 3/2⟩ ∧
    NounPost.checkNIsNJ nouns origin = NounPost.checkNIsNJ nouns origin 5 := ⟨rfl, rfl⟩

/-- C104: the predicator package: `PredicatorExtractor.extract(candidates=None, min_predicator_frequency=1)`, its three ways of counting (2), its thresholds;
`EomiExtractor.extract(None, 0.3, 1, True)`; `StemExtractor(…, 10, 0.5)`, `predict(l, 0.7, 1)`, `extract(None, 0.7, 100)` -/
theorem C104_predicators (entLt : List Int → Rat → Bool) (enumS : List Str → List Str) (enumL : List (Str × Str) → List (Str × Str))
    (s : Pred.State) (c : EC.State) (g : LR.State) (sents : List Str) (e : Eomi.State) (z : Stem.State) (stems eomis : List Str) (l : Str) :
    Pred.trainWithEojeolCounter s c = Pred.trainWithEojeolCounter s c 2 ∧ Pred.trainWithLrgraph s g = Pred.trainWithLrgraph s g 2 ∧
    Pred.trainWithSentences s sents = Pred.trainWithSentences s sents 2 ∧ Pred.extract enumL s = Pred.extract enumL s [] 1 ∧
    ({} : Pred.Thresholds) = ⟨5, 3/10, 1, 10, 1/2, 7/10, 100⟩ ∧
    Eomi.extract enumS enumL e = Eomi.extract enumS enumL e [] (3/10) 1 true ∧
    Stem.construct g stems eomis = Stem.construct g stems eomis 10 (1/2) ∧ Stem.predict entLt z l = Stem.predict entLt z l (7/10) 1 ∧
    Stem.extract entLt enumS enumL z = Stem.extract entLt enumS enumL z [] (7/10) 100 :=
  ⟨rfl, rfl, rfl, rfl, rfl, rfl, rfl, rfl, rfl⟩

/-- C104: `PredicatorExtractor(nouns, josas=None, adjectives=None, verbs=None, eomis=None, extract_eomi=False, extract_stem=False, verbose=True, ensure_normalized=False)` -/
theorem C104_predicator_args (nouns : List Str) : ({ nouns := nouns } : PredHeap.Args) = ⟨nouns, none, none, none, none, false, false, true, false⟩ := rfl

/-- C104: `WordExtractor(max_left_length=10, max_right_length=6, min_frequency=5, min_cohesion_forward=0.05, min_cohesion_backward=0, max_droprate_cohesion=0.98, …)`,
`train(sents, num_for_pruning=0, cumulate=True)`; `BigramExtractor(min_frequency=5, filtering_checkpoint=100000)` -/
theorem C104_words (p : WX.Params) (s : WX.State) (sents : List Str) :
    WX.train p s sents = WX.train p s sents 0 true ∧ ({} : WX.Params) = ⟨10, 6, 5⟩ ∧ ({} : WX.Cuts) = ⟨5, 5/100, 0, 98/100, 0, 0, 0, 0, false⟩ ∧
    ({} : BG.Params) = ⟨5, true, 100000, splitWs⟩ := by
  refine ⟨rfl, rfl, ?_, rfl⟩
  have h : (1 / 20 : ℝ) = 5 / 100 := by norm_num
  show WX.Cuts.mk _ _ _ _ _ _ _ _ _ = _
  rw [h]

/-- C104: `BaseVectorizer(min_tf=0, max_tf=99999999, min_df=0, max_df=1.0)`, `sent_to_word_contexts_matrix(sents, windows=3, min_tf=10, dynamic_weight=False)`,
`pmi(X, py=None, min_pmi=0, alpha=0.0, beta=1)`, `most_similar(…, topk=10)` -/
theorem C104_numbers {V : Type} (X : Pmi.Csr) (dist : V → V → Rat) (argsort : List Rat → List Nat) (query : Str) (vectors : List V) (itemToIdx : Dict Str Int)
    (idxToItem : List Str) :
    ({} : VZ.Params) = ⟨splitWs, 0, 99999999, 0, 1⟩ ∧ ({} : WC.Params) = ⟨3, 10, splitWs, false, true⟩ ∧
    Pmi.pmi X = Pmi.pmi X none 0 0 1 ∧ Pmi.pmiMemoryFriendly X = Pmi.pmiMemoryFriendly X none 0 0 1 ∧
    Utils.mostSimilar dist argsort query vectors itemToIdx idxToItem = Utils.mostSimilar dist argsort query vectors itemToIdx idxToItem 10 :=
  ⟨rfl, rfl, rfl, rfl, rfl⟩

/-- C104: the tokenizers: `flatten=True`, `tolerance=0.0`, `remove_r=False`, `compose_compound=True`; `MaxLRScoreTokenizer(…, 0.3, 0.5, 0.5, 0.3)`;
`normalize(doc, num_repeat=2)` of the tokenizer package -/
theorem C104_tokenizers (isDigit isWord : Char → Bool) (scores : Dict Str Rat) (ds : Rat) (n : Nat) (sent : Str) (isNoun : Str → Bool) (g : MaxLR.Config)
    (lrgraph : Option (Dict Str (Dict Str Rat))) (b : Option (Dict Str (Dict Str Rat) → PyM (Dict Str Rat × Dict Str Rat))) (Dl Dr : Option MaxLR.Words) (Pl Pr : Option (Dict Str Rat)) :
    Calls.regex isDigit sent = Calls.regex isDigit sent false true ∧ Calls.ltok scores ds sent = Calls.ltok scores ds sent 0 true false ∧
    Calls.ltokCall scores ds sent = Calls.ltokCall scores ds sent 0 true false ∧
    Calls.maxScore scores n ds sent = Calls.maxScore scores n ds sent true ∧ Calls.maxScoreCall scores n ds sent = Calls.maxScoreCall scores n ds sent true ∧
    Calls.nounMatch scores sent = Calls.nounMatch scores sent true true ∧ Calls.nounMatchCall scores sent = Calls.nounMatchCall scores sent true true ∧
    Calls.nounLMatchCall isNoun sent = Calls.nounLMatchCall isNoun sent true ∧
    Calls.maxLR g sent = Calls.maxLR g sent false true ∧ Calls.maxLRCall g sent = Calls.maxLRCall g sent true true ∧
    MaxLR.construct b lrgraph Dl Dr Pl Pr = MaxLR.construct b lrgraph Dl Dr Pl Pr (3/10) (1/2) (1/2) (3/10) ∧
    TokNorm.normalize isWord sent = TokNorm.normalize isWord sent 2 :=
  ⟨rfl, rfl, rfl, rfl, rfl, rfl, rfl, rfl, rfl, rfl, rfl, rfl⟩

/-- C104: the lemmatizer: `conjugate(stem, ending, enforce_moum_harmoney=False)`, `lemma_candidate(l, r, predefined=None)`, `Lemmatizer(stems, endings, predefined=None)`,
`lemmatize(word, check_only_stem=False)` -/
theorem C104_lemmas (x y : Str) (z : Lemma.Lemmatizer) (f h : Str → Bool) :
    Lemma.conjugate x y = Lemma.conjugate x y false ∧ Lemma.conjugateChat x y = Lemma.conjugateChat x y false ∧
    Lemma.lemmaCandidate x y = Lemma.lemmaCandidate x y [] ∧ Lemma.lemmaCandidateChat x y = Lemma.lemmaCandidateChat x y [] ∧
    ({ stems := f, endings := h } : Lemma.Lemmatizer) = ⟨f, h, []⟩ ∧ Lemma.lemmatize z x = Lemma.lemmatize z x false :=
  ⟨rfl, rfl, rfl, rfl, rfl, rfl⟩

/-- C104: the news packages: `NewsNounExtractor(10, 7)`, `extract(0.4, 3, None, 0.6)`, `stem_to_adverb(stems, ['히'])`, `NewsPOSExtractor(True, True, True).train(…)`;
`EojeolPatternTrainer(10, 6, 10)`, `train(sents)`, `train_hits(sum_of_rank=10000, decaying_factor=0.9, max_iter=10)` -/
theorem C104_news (s : NewsNoun.State) (stems : List Str) (t : EP.State) (sents : List Str) (c : Hits.Call) :
    ({} : NewsNoun.Params).maxLeft = 10 ∧ ({} : NewsNoun.Params).maxRight = 7 ∧
    NewsNoun.extract s = NewsNoun.extract s (4/10) 3 [] (6/10) ∧ NewsPos.stemToAdverb stems = NewsPos.stemToAdverb stems [['히']] ∧
    ({} : NewsPos.TrainParams) = ⟨true, true, true, 1, 30, 3/10, 1, 1, 1, 5, 3/10, 1⟩ ∧
    ({} : EP.State) = ⟨10, 6, 10, true, none, none, none, none⟩ ∧ EP.train t sents = EP.train t sents [] [] ∧ Hits.trainHits c = Hits.trainHits c 10000 (9/10) 10 := by
  have h1 : (4/10 : Rat) = 2/5 := by norm_num
  have h2 : (6/10 : Rat) = 3/5 := by norm_num
  rw [h1, h2]
  exact ⟨rfl, rfl, rfl, rfl, rfl, rfl, rfl, rfl⟩

/-- C104: the taggers' templates and the weights of the two evaluators (soynlp/postagger/_template.py:13-20,67-76, _evaluator.py:15-27,54-74) -/
theorem C104_taggers (d : PT.State) :
    ({ dictionary := d } : PT.EojeolMatcher).singleTags = ["Noun".toList, "Verb".toList, "Adjective".toList, "Adverb".toList, "Exclamation".toList] ∧
    ({ dictionary := d } : PT.EojeolMatcher).lrTemplates = [("Noun".toList, "Verb".toList), ("Noun".toList, "Adjective".toList), ("Noun".toList, "Josa".toList)] ∧
    ({ dictionary := d } : PT.LRMatcher).ltags = ["Noun".toList, "Adjective".toList, "Verb".toList, "Adverb".toList, "Exclamation".toList] ∧
    ({ dictionary := d } : PT.LRMatcher).templates = [("Noun".toList, ["Josa".toList, "Verb".toList, "Adjective".toList])] ∧
    ({} : PT.EWeights) = ⟨-1/10, -15/100, 2/10, -3/10, 1/10, -5/100, 1/10, 2/10⟩ ∧
    ({} : PT.LWeights) = ⟨3/10, 15/100, 2/10, 1/10, 1/10, 1/10, -2/10, []⟩ := ⟨rfl, rfl, rfl, rfl, rfl, rfl⟩

/-! ### the omitted values matter: a call without them and one with other ones differ -/

private def dg : LR.State := { lr := [(['가'], (List.range 11).map (fun i => ([Char.ofNat (0xac00 + i)], 1)))] }

example : (LR.getR dg ['가']).length = 10 ∧ (LR.getR dg ['가'] (-1)).length = 11 := by decide +kernel

end Props
